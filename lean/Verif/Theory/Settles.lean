import Verif.Theory.DeriveChildren
import Verif.Model.Containers
/-!
# What a decoder gives when it reports nothing

`Settles x R`: the computation gives `v` without an error and without touching the context
exactly if `R v`; and it takes back no errors.  A calculus for the constructs of the decoders.
-/

set_option linter.unusedSectionVars false

namespace Knuffel
variable {E S V α β ι σ : Type}

/-- The computation gives `v` and leaves the context as it is exactly if `R v`; otherwise it fails
or reports errors, and those stay. -/
structure Settles (x : D E S α) (R : α → Prop) : Prop where
  keeps : Keeps x
  live : ∀ c, x c ≠ .panic
  ok : ∀ c c' v, x c = .ok v c' → c'.errors = c.errors → c' = c ∧ R v
  back : ∀ v, R v → ∀ c, x c = .ok v c

namespace Settles

theorem iff {x : D E S α} {R : α → Prop} (h : Settles x R) (c : Ctx E S) (v : α) : x c = .ok v c ↔ R v :=
  ⟨fun hx => (h.ok c c v hx rfl).2, fun hr => h.back v hr c⟩

theorem imp {x : D E S α} {R R' : α → Prop} (h : Settles x R) (hr : ∀ v, R v ↔ R' v) : Settles x R' :=
  ⟨h.keeps, h.live, fun c c' v hx he => ⟨(h.ok c c' v hx he).1, (hr v).1 (h.ok c c' v hx he).2⟩, fun v hv => h.back v ((hr v).2 hv)⟩

theorem congr {x y : D E S α} {R : α → Prop} (h : Settles x R) (e : ∀ c, y c = x c) : Settles y R := by
  have : y = x := funext e
  rw [this]; exact h

theorem pure (a : α) : Settles (Pure.pure a : D E S α) (fun v => v = a) :=
  ⟨Keeps.pure a, nofun, fun c c' v h _ => by rw [D.pure_ok_iff] at h; exact ⟨h.2.symm, h.1.symm⟩, fun v h c => by rw [h]; rfl⟩

theorem fail (e : DErr S) : Settles (D.fail e : D E S α) (fun _ => False) :=
  ⟨Keeps.fail e, nofun, fun c c' v h _ => by rw [D.fail_ok_iff] at h; exact h.elim, fun _ h => h.elim⟩

theorem emit (e : DErr S) : Settles (D.emit e : D E S Unit) (fun _ => False) :=
  ⟨Keeps.emit e, nofun, fun c c' v h he => by
    rw [D.emit_eq] at h
    simp only [Out.ok.injEq] at h
    rw [← h.2] at he
    simp [Ctx.emitError] at he, fun _ h => h.elim⟩

theorem bind {x : D E S α} {f : α → D E S β} {Q : α → Prop} {R : α → β → Prop} (hx : Settles x Q)
    (hf : ∀ a, Settles (f a) (R a)) : Settles (x >>= f) (fun b => ∃ a, Q a ∧ R a b) := by
  refine ⟨hx.keeps.bind fun a => (hf a).keeps, ?_, ?_, ?_⟩
  · intro c
    cases h : x c with
    | ok a c' => rw [D.bind_ok h]; exact (hf a).live c'
    | err e c' => rw [D.bind_err h]; nofun
    | panic => exact (hx.live c h).elim
  · intro c c' v h he
    rw [D.bind_ok_iff] at h
    obtain ⟨a, c1, h1, h2⟩ := h
    have k1 := hx.keeps.ok h1
    have k2 := (hf a).keeps.ok h2
    have e1 : c1.errors = c.errors := by
      obtain ⟨l1, k1⟩ := k1
      obtain ⟨l2, k2⟩ := k2
      have := congrArg List.length he
      rw [← k2, ← k1] at this
      simp only [List.length_append] at this
      have : l1 = [] := List.eq_nil_of_length_eq_zero (by omega)
      rw [← k1, this, List.append_nil]
    obtain ⟨rfl, hq⟩ := hx.ok _ _ _ h1 e1
    obtain ⟨rfl, hr⟩ := (hf a).ok _ _ _ h2 he
    exact ⟨rfl, a, hq, hr⟩
  · rintro v ⟨a, hq, hr⟩ c
    rw [D.bind_ok (hx.back a hq c)]
    exact (hf a).back v hr c

/-- An error and then something. -/
theorem emit_bind (e : DErr S) {f : Unit → D E S β} (hf : ∀ a, Keeps (f a))
    (hl : ∀ a c, f a c ≠ .panic := by nofun) : Settles (D.emit e >>= f) (fun _ => False) := by
  refine ⟨(Keeps.emit e).bind hf, fun c => by rw [D.bind_ok (D.emit_eq _ _)]; exact hl _ _, ?_, fun _ h => h.elim⟩
  intro c c' v h he
  rw [D.bind_ok (D.emit_eq _ _)] at h
  have k := (hf ()).ok h
  rw [he] at k
  have := k.length_le
  simp only [Ctx.emitError, List.length_append, List.length_cons, List.length_nil] at this
  omega

theorem map {x : D E S α} {Q : α → Prop} (hx : Settles x Q) (f : α → β) :
    Settles (x >>= fun a => Pure.pure (f a)) (fun b => ∃ a, Q a ∧ b = f a) := hx.bind fun a => Settles.pure (f a)

theorem ite {p : Prop} [Decidable p] {x y : D E S α} {R : α → Prop} (hx : p → Settles x R) (hy : ¬ p → Settles y R) :
    Settles (if p then x else y) R := by
  split
  · exact hx ‹_›
  · exact hy ‹_›

theorem collect {f : β → D E S α} {R : β → α → Prop} (hf : ∀ b, Settles (f b) (R b)) (l : List β) :
    Settles (D.collect f l) (Each2 R l) := by
  induction l with
  | nil =>
    refine (Settles.pure _).imp fun v => ⟨?_, ?_⟩
    · rintro rfl; exact .nil
    · intro h; cases h; rfl
  | cons b l ih =>
    refine ((hf b).bind fun a => ih.map fun ys => a :: ys).imp fun v => ⟨?_, ?_⟩
    · rintro ⟨a, h1, ys, h2, rfl⟩; exact .cons h1 h2
    · intro h; cases h with | cons h1 h2 => exact ⟨_, h1, _, h2, rfl⟩

/-- What `finish` makes of it. -/
theorem finish {x : D E S α} {R : α → Prop} (h : Settles x R) (empty : E) (v : α) :
    Knuffel.finish (x ⟨[], empty⟩) = some (.ok v) ↔ R v := by
  rw [← h.iff ⟨[], empty⟩ v]
  cases hx : x ⟨[], empty⟩ with
  | ok a c =>
    simp only [Knuffel.finish, Ctx.hasErrors]
    constructor
    · intro hh
      by_cases he : c.errors = []
      · simp only [he, List.isEmpty_nil, Bool.not_true, Bool.false_eq_true, if_false, Option.some.injEq, Except.ok.injEq] at hh
        subst hh
        rw [(h.ok _ _ _ hx he).1]
      · have : (!c.errors.isEmpty) = true := by cases hc : c.errors <;> simp_all
        simp [this] at hh
    · intro hh
      simp only [Out.ok.injEq] at hh
      obtain ⟨rfl, rfl⟩ := hh
      rfl
  | err e c => simp [Knuffel.finish]
  | panic => simp [Knuffel.finish]

/-- What `finish` makes of it if there is nothing to be read. -/
theorem finish_error {x : D E S α} {R : α → Prop} (h : Settles x R) (empty : E) :
    (∃ es, es ≠ [] ∧ Knuffel.finish (x ⟨[], empty⟩) = some (.error es)) ↔ ∀ v, ¬ R v := by
  constructor
  · rintro ⟨es, -, he⟩ v hv
    rw [← h.finish empty v, he] at hv
    simp at hv
  · intro hn
    cases hx : x ⟨[], empty⟩ with
    | ok a c =>
      by_cases he : c.errors = []
      · exact (hn a (h.ok _ _ _ hx he).2).elim
      · refine ⟨c.errors, he, ?_⟩
        have : (!c.errors.isEmpty) = true := by cases hc : c.errors <;> simp_all
        simp [Knuffel.finish, Ctx.hasErrors, Ctx.intoErrors, this]
    | err e c => exact ⟨c.errors ++ [e], by simp, rfl⟩
    | panic => exact (h.live _ hx).elim

/-- The children of a document read as a `Vec`. -/
theorem vec {d : NodeDecoder E S α} {R : SpannedNode S → α → Prop} (hd : ∀ n, Settles (d n) (R n)) (nodes : List (SpannedNode S)) :
    Settles (vecChildren d nodes) (Each2 R nodes) := by
  suffices ∀ acc, Settles (vecLoop d nodes acc) fun r => ∃ xs, r = acc ++ xs ∧ Each2 R nodes xs from
    (this []).imp fun v => by simp
  induction nodes with
  | nil =>
    intro acc
    refine (Settles.pure acc).imp fun v => ⟨?_, ?_⟩
    · rintro rfl; exact ⟨[], by simp, .nil⟩
    · rintro ⟨xs, rfl, h⟩; cases h; simp
  | cons n nodes ih =>
    intro acc
    have hn := hd n
    refine ⟨?_, ?_, ?_, ?_⟩
    · intro c
      have k := hn.keeps c
      simp only [vecLoop]
      cases hx : d n c with
      | ok v c' =>
        rw [hx] at k
        have k2 := (ih (acc ++ [v])).keeps c'
        dsimp only at k ⊢
        cases hy : vecLoop d nodes (acc ++ [v]) c' with
        | panic => trivial
        | _ => rw [hy] at k2; exact k.trans k2
      | err e c' =>
        rw [hx] at k
        have k2 := (ih acc).keeps (c'.emitError e)
        dsimp only at k ⊢
        have k := k.trans (List.prefix_append c'.errors [e])
        cases hy : vecLoop d nodes acc (c'.emitError e) with
        | panic => trivial
        | _ => rw [hy] at k2; exact k.trans k2
      | panic => exact (hn.live c hx).elim
    · intro c
      simp only [vecLoop]
      cases hx : d n c with
      | ok v c' => exact (ih (acc ++ [v])).live c'
      | err e c' => exact (ih acc).live _
      | panic => exact (hn.live c hx).elim
    · intro c c' v h he
      simp only [vecLoop] at h
      cases hx : d n c with
      | ok y c1 =>
        rw [hx] at h
        dsimp only at h
        have k1 := hn.keeps.ok hx
        have k2 := (ih (acc ++ [y])).keeps.ok h
        have e1 : c1.errors = c.errors := by
          rw [he] at k2
          exact k2.eq_of_length_le k1.length_le
        obtain ⟨rfl, hq⟩ := hn.ok _ _ _ hx e1
        obtain ⟨rfl, xs, hr, hs⟩ := (ih (acc ++ [y])).ok _ _ _ h he
        exact ⟨rfl, y :: xs, by simp [hr], .cons hq hs⟩
      | err e c1 =>
        rw [hx] at h
        dsimp only at h
        have k1 := hn.keeps c
        rw [hx] at k1
        have k1 : c.errors <+: c1.errors := k1
        have k2 := (ih acc).keeps.ok h
        rw [he] at k2
        have := k2.length_le
        have := k1.length_le
        simp only [Ctx.emitError, List.length_append, List.length_cons, List.length_nil] at *
        omega
      | panic => exact (hn.live c hx).elim
    · rintro v ⟨xs, rfl, h⟩ c
      cases h with
      | @cons _ y _ xs h1 h2 =>
        simp only [vecLoop, hn.back y h1 c]
        exact (ih (acc ++ [y])).back _ ⟨xs, by simp, h2⟩ c

end Settles

theorem Each2.iff_imp {R R' : α → β → Prop} {l : List α} {l' : List β} (h : ∀ a ∈ l, ∀ b, R a b ↔ R' a b) :
    Each2 R l l' ↔ Each2 R' l l' := by
  induction l generalizing l' with
  | nil => constructor <;> (intro h; cases h; exact .nil)
  | cons a l ih =>
    have ih := fun l' => ih (l' := l') fun b hb => h b (by simp [hb])
    constructor
    · intro h'; cases h' with | cons h1 h2 => exact .cons ((h a (by simp) _).1 h1) ((ih _).1 h2)
    · intro h'; cases h' with | cons h1 h2 => exact .cons ((h a (by simp) _).2 h1) ((ih _).2 h2)

/-- The entries of `e` are for the fields of `l` in order, with values as `P` says. -/
def Fills (fld : β → AttrAccess) (P : Nat → β → FVal V → Prop) (l : List β) (e : Env V) : Prop :=
  e.map (·.1) = l.map fld ∧ ∀ (i : Nat) b y, l[i]? = some b → e[i]? = some y → P i b y.2

namespace Fills
variable {fld : β → AttrAccess} {P : Nat → β → FVal V → Prop}

theorem nil_iff {e : Env V} : Fills fld P [] e ↔ e = [] := by
  constructor
  · intro h; simpa using h.1
  · rintro rfl; exact ⟨rfl, by simp⟩

theorem cons_iff {b : β} {l : List β} {e : Env V} :
    Fills fld P (b :: l) e ↔ ∃ x e', e = (fld b, x) :: e' ∧ P 0 b x ∧ Fills fld (fun i => P (i + 1)) l e' := by
  constructor
  · rintro ⟨h1, h2⟩
    cases e with
    | nil => simp at h1
    | cons y e =>
      simp only [List.map_cons, List.cons.injEq] at h1
      refine ⟨y.2, e, by rw [← h1.1], h2 0 b y rfl rfl, h1.2, fun i b' y' hb hy => h2 (i + 1) b' y' (by simpa using hb) (by simpa using hy)⟩
  · rintro ⟨x, e', rfl, h1, h2, h3⟩
    refine ⟨by simp [h2], fun i b' y' hb hy => ?_⟩
    cases i with
    | zero =>
      simp only [List.getElem?_cons_zero, Option.some.injEq] at hb hy
      rw [← hb, ← hy]; exact h1
    | succ i => exact h3 i b' y' (by simpa using hb) (by simpa using hy)

/-- In a list of fields of which the entries of `e` are a part. -/
theorem iff_mem {l : List β} {e env : Env V} (hsub : ∀ y ∈ e, y ∈ env) (hn : (env.map (·.1)).Nodup)
    (hk : e.map (·.1) = l.map fld) :
    Fills fld P l e ↔ ∀ (i : Nat) b, l[i]? = some b → ∃ x, (fld b, x) ∈ env ∧ P i b x := by
  have hlen : e.length = l.length := by simpa using congrArg List.length hk
  have at' : ∀ (i : Nat) b y, l[i]? = some b → e[i]? = some y → y.1 = fld b := by
    intro i b y hb hy
    have := congrArg (fun l : List AttrAccess => l[i]?) hk
    simpa [hb, hy] using this
  have uniq : ∀ f x x', (f, x) ∈ env → (f, x') ∈ env → x = x' := by
    intro f x x' h h'
    clear hsub hk hlen at'
    induction env with
    | nil => simp at h
    | cons a env ih =>
      rw [List.map_cons, List.nodup_cons] at hn
      rcases List.mem_cons.1 h with h1 | h1 <;> rcases List.mem_cons.1 h' with h2 | h2
      · rw [← h1] at h2
        simpa using h2.symm
      · rw [← h1] at hn
        exact absurd (List.mem_map.2 ⟨_, h2, rfl⟩) hn.1
      · rw [← h2] at hn
        exact absurd (List.mem_map.2 ⟨_, h1, rfl⟩) hn.1
      · exact ih hn.2 h1 h2
  constructor
  · rintro ⟨-, h⟩ i b hb
    have hi : i < e.length := by rw [hlen]; exact (List.getElem?_eq_some_iff.1 hb).1
    have hy : e[i]? = some e[i] := by simp
    refine ⟨e[i].2, ?_, h i b _ hb hy⟩
    rw [← at' i b _ hb hy]
    exact hsub _ (List.getElem_mem hi)
  · intro h
    refine ⟨hk, fun i b y hb hy => ?_⟩
    obtain ⟨x, hx, hp⟩ := h i b hb
    have := hsub y (List.mem_of_getElem? hy)
    have e1 := at' i b y hb hy
    have : x = y.2 := uniq _ _ _ hx (by rw [← e1]; exact this)
    rw [← this]; exact hp

end Fills

section
variable [Externals]

/-- All property fields after the loop. -/
theorem finishProps_settles {node : SpannedNode S} {F : Nat → FVal V → Prop} (l : List (Prop' E S V × PropState V))
    (hF : ∀ (i : Nat) (b : Prop' E S V × PropState V), l[i]? = some b → Settles (b.1.finish node b.2) (F i)) :
    Settles (finishProps node l) (Fills (fun b : Prop' E S V × PropState V => b.1.field) (fun i _ x => F i x) l) := by
  induction l generalizing F with
  | nil =>
    exact (Settles.pure _).imp fun v => Fills.nil_iff.symm
  | cons b l ih =>
    refine ((hF 0 b rfl).bind fun x => (ih (F := fun i => F (i + 1)) fun i b' h => hF (i + 1) b' (by simpa using h)).map
      fun env => (b.1.field, x) :: env).imp fun v => ?_
    rw [Fills.cons_iff]
    constructor
    · rintro ⟨x, h1, e, h2, rfl⟩; exact ⟨x, e, rfl, h1, h2⟩
    · rintro ⟨x, e, rfl, h1, h2⟩; exact ⟨x, h1, e, h2, rfl⟩

/-- All child fields after the loop. -/
theorem finishChildren_settles {sp : Option S} {F : Nat → FVal V → Prop} (l : List (Child E S V × FVal V))
    (hF : ∀ (i : Nat) (b : Child E S V × FVal V), l[i]? = some b → Settles (b.1.finish sp b.2) (F i)) :
    Settles (finishChildren sp l) (Fills (fun b : Child E S V × FVal V => b.1.field) (fun i _ x => F i x) l) := by
  induction l generalizing F with
  | nil =>
    exact (Settles.pure _).imp fun v => Fills.nil_iff.symm
  | cons b l ih =>
    refine ((hF 0 b rfl).bind fun x => (ih (F := fun i => F (i + 1)) fun i b' h => hF (i + 1) b' (by simpa using h)).map
      fun env => (b.1.field, x) :: env).imp fun v => ?_
    rw [Fills.cons_iff]
    constructor
    · rintro ⟨x, h1, e, h2, rfl⟩; exact ⟨x, e, rfl, h1, h2⟩
    · rintro ⟨x, e, rfl, h1, h2⟩; exact ⟨x, h1, e, h2, rfl⟩

/-- Reading the properties, field by field. -/
theorem propLoop_settles {s : Struct E S V} {takes} (hn : s.PropNames takes)
    {Eff : Nat → Spanned Str S × Value S → PropState V → PropState V → Prop}
    (hE : ∀ (i : Nat) (p : Prop' E S V), s.properties[i]? = some p → ∀ st q, Settles (propArm p st q.1 q.2) (Eff i q st))
    {RV : Spanned Str S × Value S → FVal V × FVal V → Prop}
    (hv : ∀ vp, s.varProps = some vp → ∀ q : Spanned Str S × Value S,
      Settles (do
        let k ← liftConv q.1 (vp.impls.keyFromStr q.1.value)
        let v ← decodeValue vp.decode false vp.impls q.2
        pure (k, v)) (RV q))
    (props : List (Spanned Str S × Value S)) (sts : List (PropState V)) (var : List (FVal V × FVal V))
    (hl : sts.length = s.properties.length) :
    Settles (propLoop s props sts var) fun r =>
      r.1.length = s.properties.length ∧
      (∀ (i : Nat) (p : Prop' E S V) st, s.properties[i]? = some p → sts[i]? = some st → ∃ st', r.1[i]? = some st' ∧
        Steps (Eff i) (props.filter fun q => s.propField takes q.1.value = some i) st st') ∧
      ∃ ps, r.2 = var ++ ps ∧
        (match s.varProps with
          | some _ => Each2 RV (props.filter fun q => s.propField takes q.1.value = none) ps
          | none => ps = [] ∧ props.filter (fun q => s.propField takes q.1.value = none) = []) := by
  induction props generalizing sts var with
  | nil =>
    refine (Settles.pure _).imp ?_
    rintro ⟨sts', var'⟩
    constructor
    · intro h
      simp only [Prod.mk.injEq] at h
      obtain ⟨rfl, rfl⟩ := h
      refine ⟨hl, fun i p st _ hst => ⟨st, hst, .nil _⟩, [], by simp, ?_⟩
      cases s.varProps <;> simp [Each2.nil]
    · rintro ⟨h1, h2, ps, h3, h4⟩
      have e : sts' = sts := by
        refine List.ext_getElem (h1.trans hl.symm) fun i hi hi' => ?_
        obtain ⟨st', e, hs⟩ := h2 i s.properties[i] sts[i] (by simp) (by simp)
        cases hs
        rw [List.getElem?_eq_some_iff] at e
        exact e.2
      have : ps = [] := by
        cases hvp : s.varProps with
        | none => rw [hvp] at h4; exact h4.1
        | some vp => rw [hvp] at h4; simp only [List.filter_nil] at h4; cases h4; rfl
      subst this
      dsimp only at h3
      simp [e, h3]
  | cons q props ih =>
    obtain ⟨name, val⟩ := q
    cases hf : s.propField takes name.value with
    | some i =>
      obtain ⟨p, hp, htk⟩ := propField_get hf
      have hi : i < s.properties.length := (List.getElem?_eq_some_iff.1 hp).1
      obtain ⟨st, hst⟩ : ∃ st, sts[i]? = some st := ⟨sts[i]'(by omega), by simp⟩
      have key : ∀ c, propLoop s ((name, val) :: props) sts var c =
          (propArm p st name val >>= fun y => propLoop s props (sts.set i y) var) c := by
        intro c
        rw [propLoop]
        have ha := propArms_some hn hl hf hp hst c (val := val)
        cases hr : propArm p st name val c with
        | ok r c1 =>
          rw [D.bind_ok hr] at ha
          rw [D.bind_ok ha, D.bind_ok hr]
          dsimp only
          rw [if_pos rfl]
        | err e c1 => rw [D.bind_err hr] at ha; rw [D.bind_err ha, D.bind_err hr]
        | panic => rw [D.bind_panic hr] at ha; rw [D.bind_panic ha, D.bind_panic hr]
      refine (((hE i p hp st (name, val)).bind fun y => ih (sts.set i y) var (by simpa using hl)).congr key).imp ?_
      rintro ⟨sts', var'⟩
      have hfn : ∀ l : List (Spanned Str S × Value S), ((name, val) :: l).filter (fun q => s.propField takes q.1.value = none) =
          l.filter (fun q => s.propField takes q.1.value = none) := fun l => by
        rw [List.filter_cons_of_neg (by simp [hf])]
      rw [hfn]
      constructor
      · rintro ⟨y, hy, h1, h2, h3⟩
        refine ⟨h1, ?_, h3⟩
        intro j p' st' hp' hst'
        by_cases hij : i = j
        · subst hij
          rw [hp] at hp'; rw [hst] at hst'
          simp only [Option.some.injEq] at hp' hst'
          subst hp'; subst hst'
          obtain ⟨st2, e, hs⟩ := h2 i p y hp (by simp only [List.getElem?_set_self']; simp [hst])
          refine ⟨st2, e, ?_⟩
          rw [List.filter_cons_of_pos (by simpa using hf)]
          exact .cons hy hs
        · obtain ⟨st2, e, hs⟩ := h2 j p' st' hp' (by rw [List.getElem?_set_ne hij]; exact hst')
          refine ⟨st2, e, ?_⟩
          rw [List.filter_cons_of_neg (by simp [hf, hij])]
          exact hs
      · rintro ⟨h1, h2, h3⟩
        obtain ⟨st', e, hs⟩ := h2 i p st hp hst
        rw [List.filter_cons_of_pos (by simpa using hf)] at hs
        cases hs with
        | @cons _ _ _ y _ hy hs =>
          refine ⟨y, hy, h1, ?_, h3⟩
          intro j p' st1 hp' hst1
          by_cases hij : i = j
          · subst hij
            rw [hp] at hp'
            simp only [List.getElem?_set_self', hst, Option.some.injEq] at hp' hst1
            have hst1 : y = st1 := by simpa using hst1
            subst hp'; subst hst1
            exact ⟨st', e, hs⟩
          · rw [List.getElem?_set_ne hij] at hst1
            obtain ⟨st2, e2, hs2⟩ := h2 j p' st1 hp' hst1
            rw [List.filter_cons_of_neg (by simp [hf, hij])] at hs2
            exact ⟨st2, e2, hs2⟩
    | none =>
      have hfi : ∀ (i : Nat) (l : List (Spanned Str S × Value S)), ((name, val) :: l).filter (fun q => s.propField takes q.1.value = some i) =
          l.filter (fun q => s.propField takes q.1.value = some i) := fun i l => by
        rw [List.filter_cons_of_neg (by simp [hf])]
      have hfn : ∀ l : List (Spanned Str S × Value S), ((name, val) :: l).filter (fun q => s.propField takes q.1.value = none) =
          (name, val) :: l.filter (fun q => s.propField takes q.1.value = none) := fun l => by
        rw [List.filter_cons_of_pos (by simpa using hf)]
      simp only [hfi, hfn]
      cases hvp : s.varProps with
      | none =>
        have key : ∀ c, propLoop s ((name, val) :: props) sts var c = D.fail (unexpectedProperty name) c := by
          intro c
          rw [propLoop, D.bind_ok (propArms_none hn hl hf c)]
          dsimp only
          rw [if_neg (by simp), hvp]
        refine ((Settles.fail _).congr key).imp ?_
        rintro ⟨sts', var'⟩
        simp
      | some vp =>
        have key : ∀ c, propLoop s ((name, val) :: props) sts var c =
            ((do
              let k ← liftConv name (vp.impls.keyFromStr name.value)
              let v ← decodeValue vp.decode false vp.impls val
              pure (k, v)) >>= fun y => propLoop s props sts (var ++ [y])) c := by
          intro c
          rw [propLoop, D.bind_ok (propArms_none hn hl hf c)]
          dsimp only
          rw [if_neg (by simp), hvp]
          simp only [bind_assoc, pure_bind]
        refine (((hv vp hvp (name, val)).bind fun y => ih sts (var ++ [y]) hl).congr key).imp ?_
        rintro ⟨sts', var'⟩
        rw [hvp]
        dsimp only
        constructor
        · rintro ⟨y, hy, h1, h2, ps, h3, h4⟩
          exact ⟨h1, h2, y :: ps, by simp [h3], .cons hy h4⟩
        · rintro ⟨h1, h2, ps, h3, h4⟩
          cases h4 with
          | @cons _ y _ ps hy h4 => exact ⟨y, hy, h1, h2, ps, by simp [h3], h4⟩

theorem choose_list {P : Nat → α → Prop} (n : Nat) (h : ∀ i, i < n → ∃ a, P i a) :
    ∃ l : List α, l.length = n ∧ ∀ i a, l[i]? = some a → P i a := by
  induction n with
  | zero => exact ⟨[], rfl, by simp⟩
  | succ n ih =>
    obtain ⟨l, h1, h2⟩ := ih fun i hi => h i (by omega)
    obtain ⟨a, ha⟩ := h n (by omega)
    refine ⟨l ++ [a], by simp [h1], fun i b hb => ?_⟩
    by_cases hi : i < l.length
    · rw [List.getElem?_append_left hi] at hb; exact h2 i b hb
    · rw [List.getElem?_append_right (by omega)] at hb
      have : i = n := by
        have := (List.getElem?_eq_some_iff.1 hb).1
        simp only [List.length_cons, List.length_nil] at this
        omega
      subst this
      simp only [h1, Nat.sub_self, List.getElem?_cons_zero, Option.some.injEq] at hb
      rw [← hb]; exact ha

/-- The whole of the properties. -/
theorem decodeProps_settles {s : Struct E S V} {takes} (hn : s.PropNames takes) {node : SpannedNode S}
    {Eff : Nat → Spanned Str S × Value S → PropState V → PropState V → Prop}
    (hE : ∀ (i : Nat) (p : Prop' E S V), s.properties[i]? = some p → ∀ st q, Settles (propArm p st q.1 q.2) (Eff i q st))
    {RV : Spanned Str S × Value S → FVal V × FVal V → Prop}
    (hv : ∀ vp, s.varProps = some vp → ∀ q : Spanned Str S × Value S,
      Settles (do
        let k ← liftConv q.1 (vp.impls.keyFromStr q.1.value)
        let v ← decodeValue vp.decode false vp.impls q.2
        pure (k, v)) (RV q))
    {F : Nat → PropState V → FVal V → Prop}
    (hF : ∀ (i : Nat) (p : Prop' E S V) st, s.properties[i]? = some p → Settles (p.finish node st) (F i st)) :
    Settles (decodeProps s node) fun env => ∃ e,
      Fills (fun p : Prop' E S V => p.field)
        (fun i p x => ∃ st, Steps (Eff i) (s.propsFor takes node (some i)) p.init st ∧ F i st x) s.properties e ∧
      match s.varProps with
      | some vp => ∃ ps, env = e ++ [(vp.field, .pairs ps)] ∧ Each2 RV (s.propsFor takes node none) ps
      | none => env = e ∧ s.propsFor takes node none = [] := by
  have fin : ∀ r : List (PropState V) × List (FVal V × FVal V),
      Settles (finishProps node (s.properties.zip r.1)) (Fills (fun b : Prop' E S V × PropState V => b.1.field)
        (fun i _ x => ∃ st, r.1[i]? = some st ∧ F i st x) (s.properties.zip r.1)) := fun r =>
    finishProps_settles (F := fun i x => ∃ st, r.1[i]? = some st ∧ F i st x) _ fun i b hb => by
      obtain ⟨p, st⟩ := b
      obtain ⟨h1, h2⟩ := List.getElem?_zip_eq_some.1 hb
      refine (hF i p st h1).imp fun x => ?_
      dsimp only at h2 ⊢
      simp [h2]
  have last : ∀ (r : List (PropState V) × List (FVal V × FVal V)) (e : Env V), Settles (E := E) (S := S)
      (match s.varProps with
        | some vp => pure (e ++ [(vp.field, .pairs r.2)])
        | none => pure e) fun env => env = match s.varProps with
          | some vp => e ++ [(vp.field, .pairs r.2)]
          | none => e := by
    intro r e
    cases s.varProps <;> exact Settles.pure _
  refine ((propLoop_settles hn hE hv node.value.properties (s.properties.map (·.init)) [] (by simp)).bind fun r =>
    (fin r).bind fun e => last r e).imp fun env => ?_
  have zipmap : ∀ l : List (PropState V), l.length = s.properties.length →
      (s.properties.zip l).map (fun b => b.1.field) = s.properties.map (·.field) := by
    intro l hl
    have hz : (s.properties.zip l).map (·.1) = s.properties := by
      rw [← List.unzip_fst, List.unzip_zip hl.symm]
    have := congrArg (List.map fun p : Prop' E S V => p.field) hz
    rw [List.map_map] at this
    exact this
  constructor
  · rintro ⟨⟨sts, var⟩, ⟨h1, h2, ps, h3, h4⟩, e, ⟨h5, h6⟩, h7⟩
    dsimp only at h1 h2 h3 h5 h6 h7
    refine ⟨e, ⟨h5.trans (zipmap _ h1), ?_⟩, ?_⟩
    · intro i p y hp hy
      obtain ⟨st, hst, hs⟩ := h2 i p p.init hp (by simp [hp])
      obtain ⟨st', e1, hf⟩ := h6 i (p, st) y (List.getElem?_zip_eq_some.2 ⟨hp, hst⟩) hy
      rw [hst, Option.some.injEq] at e1
      subst e1
      exact ⟨st, hs, hf⟩
    · rw [List.nil_append] at h3
      subst h3
      cases hvp : s.varProps with
      | none => rw [hvp] at h4 h7; exact ⟨h7, h4.2⟩
      | some vp => rw [hvp] at h4 h7; exact ⟨var, h7, h4⟩
  · rintro ⟨e, ⟨h1, h2⟩, h3⟩
    have hlen : e.length = s.properties.length := by simpa using congrArg List.length h1
    obtain ⟨sts, hl, hsts⟩ := choose_list (P := fun i st => ∀ p y, s.properties[i]? = some p → e[i]? = some y →
        Steps (Eff i) (s.propsFor takes node (some i)) p.init st ∧ F i st y.2) s.properties.length (by
      intro i hi
      obtain ⟨st, hs, hf⟩ := h2 i s.properties[i] e[i] (by simp) (by simp)
      refine ⟨st, fun p y hp hy => ?_⟩
      obtain ⟨_, rfl⟩ := List.getElem?_eq_some_iff.1 hp
      obtain ⟨_, rfl⟩ := List.getElem?_eq_some_iff.1 hy
      exact ⟨hs, hf⟩)
    have hget : ∀ (i : Nat) p, s.properties[i]? = some p → ∃ y, e[i]? = some y := by
      intro i p hp
      have := (List.getElem?_eq_some_iff.1 hp).1
      exact ⟨e[i], by simp⟩
    have loop : ∀ (i : Nat) (p : Prop' E S V) st, s.properties[i]? = some p → (s.properties.map (·.init))[i]? = some st →
        ∃ st', sts[i]? = some st' ∧ Steps (Eff i) (s.propsFor takes node (some i)) st st' := by
      intro i p st hp hst
      obtain ⟨y, hy⟩ := hget i p hp
      have hi := (List.getElem?_eq_some_iff.1 hp).1
      have hst' : sts[i]? = some sts[i] := by simp
      have := hsts i _ hst' p y hp hy
      rw [List.getElem?_map, hp, Option.map_some, Option.some.injEq] at hst
      subst hst
      exact ⟨_, hst', this.1⟩
    have fills : Fills (fun b : Prop' E S V × PropState V => b.1.field)
        (fun i _ x => ∃ st, sts[i]? = some st ∧ F i st x) (s.properties.zip sts) e := by
      refine ⟨h1.trans (zipmap sts hl).symm, ?_⟩
      rintro i ⟨p, st⟩ y hb hy
      obtain ⟨hp, hst⟩ := List.getElem?_zip_eq_some.1 hb
      exact ⟨st, hst, (hsts i st hst p y hp hy).2⟩
    cases hvp : s.varProps with
    | none =>
      rw [hvp] at h3
      exact ⟨(sts, []), ⟨hl, loop, [], rfl, rfl, h3.2⟩, e, fills, h3.1⟩
    | some vp =>
      rw [hvp] at h3
      obtain ⟨ps, h3, h4⟩ := h3
      exact ⟨(sts, ps), ⟨hl, loop, ps, rfl, h4⟩, e, fills, h3⟩

/-- Reading the children, field by field. -/
theorem childLoop_settles {s : Struct E S V} {takes} (hn : s.ChildNames takes)
    {Eff : Nat → SpannedNode S → FVal V → FVal V → Prop}
    (hE : ∀ (i : Nat) (ch : Child E S V), s.children[i]? = some ch → ∀ x n, Settles (childEffect ch x n) (Eff i n x))
    {RV : SpannedNode S → FVal V → Prop}
    (hv : ∀ vc, s.varChildren = some vc → ∀ n, Settles (vc.decoder n) (RV n))
    (nodes : List (SpannedNode S)) (flds : List (FVal V)) (var : List (FVal V))
    (hl : flds.length = s.children.length) :
    Settles (childLoop s nodes flds var) fun r =>
      r.1.length = s.children.length ∧
      (∀ (i : Nat) (ch : Child E S V) x, s.children[i]? = some ch → flds[i]? = some x → ∃ x', r.1[i]? = some x' ∧
        Steps (Eff i) (s.nodesFor takes nodes (some i)) x x') ∧
      ∃ xs, r.2 = var ++ xs ∧
        (match s.varChildren with
          | some _ => Each2 RV (s.nodesFor takes nodes none) xs
          | none => xs = [] ∧ s.nodesFor takes nodes none = []) := by
  unfold Struct.nodesFor
  induction nodes generalizing flds var with
  | nil =>
    refine (Settles.pure _).imp ?_
    rintro ⟨flds', var'⟩
    constructor
    · intro h
      simp only [Prod.mk.injEq] at h
      obtain ⟨rfl, rfl⟩ := h
      refine ⟨hl, fun i p st _ hst => ⟨st, hst, .nil _⟩, [], by simp, ?_⟩
      cases s.varChildren <;> simp [Each2.nil]
    · rintro ⟨h1, h2, ps, h3, h4⟩
      have e : flds' = flds := by
        refine List.ext_getElem (h1.trans hl.symm) fun i hi hi' => ?_
        obtain ⟨st', e, hs⟩ := h2 i s.children[i] flds[i] (by simp) (by simp)
        cases hs
        rw [List.getElem?_eq_some_iff] at e
        exact e.2
      have : ps = [] := by
        cases hvp : s.varChildren with
        | none => rw [hvp] at h4; exact h4.1
        | some vp => rw [hvp] at h4; simp only [List.filter_nil] at h4; cases h4; rfl
      subst this
      dsimp only at h3
      simp [e, h3]
  | cons n nodes ih =>
    cases hf : s.childField takes n.value.nodeName.value with
    | some i =>
      obtain ⟨p, hp, htk⟩ := childField_get hf
      have hi : i < s.children.length := (List.getElem?_eq_some_iff.1 hp).1
      obtain ⟨st, hst⟩ : ∃ st, flds[i]? = some st := ⟨flds[i]'(by omega), by simp⟩
      have key : ∀ c, childLoop s (n :: nodes) flds var c =
          (childEffect p st n >>= fun y => childLoop s nodes (flds.set i y) var) c := by
        intro c
        rw [childLoop]
        have ha := childArms_some hn hl hf hp hst c
        cases hr : childEffect p st n c with
        | ok r c1 =>
          rw [D.bind_ok hr] at ha
          rw [D.bind_ok ha, D.bind_ok hr]
          dsimp only
          rw [if_pos rfl]
        | err e c1 => rw [D.bind_err hr] at ha; rw [D.bind_err ha, D.bind_err hr]
        | panic => rw [D.bind_panic hr] at ha; rw [D.bind_panic ha, D.bind_panic hr]
      refine (((hE i p hp st n).bind fun y => ih (flds.set i y) var (by simpa using hl)).congr key).imp ?_
      rintro ⟨flds', var'⟩
      have hfn : ∀ l : List (SpannedNode S), (n :: l).filter (fun q => s.childField takes q.value.nodeName.value = none) =
          l.filter (fun q => s.childField takes q.value.nodeName.value = none) := fun l => by
        rw [List.filter_cons_of_neg (by simp [hf])]
      rw [hfn]
      constructor
      · rintro ⟨y, hy, h1, h2, h3⟩
        refine ⟨h1, ?_, h3⟩
        intro j p' st' hp' hst'
        by_cases hij : i = j
        · subst hij
          rw [hp] at hp'; rw [hst] at hst'
          simp only [Option.some.injEq] at hp' hst'
          subst hp'; subst hst'
          obtain ⟨st2, e, hs⟩ := h2 i p y hp (by simp only [List.getElem?_set_self']; simp [hst])
          refine ⟨st2, e, ?_⟩
          rw [List.filter_cons_of_pos (by simpa using hf)]
          exact .cons hy hs
        · obtain ⟨st2, e, hs⟩ := h2 j p' st' hp' (by rw [List.getElem?_set_ne hij]; exact hst')
          refine ⟨st2, e, ?_⟩
          rw [List.filter_cons_of_neg (by simp [hf, hij])]
          exact hs
      · rintro ⟨h1, h2, h3⟩
        obtain ⟨st', e, hs⟩ := h2 i p st hp hst
        rw [List.filter_cons_of_pos (by simpa using hf)] at hs
        cases hs with
        | @cons _ _ _ y _ hy hs =>
          refine ⟨y, hy, h1, ?_, h3⟩
          intro j p' st1 hp' hst1
          by_cases hij : i = j
          · subst hij
            rw [hp] at hp'
            simp only [List.getElem?_set_self', hst, Option.some.injEq] at hp' hst1
            have hst1 : y = st1 := by simpa using hst1
            subst hp'; subst hst1
            exact ⟨st', e, hs⟩
          · rw [List.getElem?_set_ne hij] at hst1
            obtain ⟨st2, e2, hs2⟩ := h2 j p' st1 hp' hst1
            rw [List.filter_cons_of_neg (by simp [hf, hij])] at hs2
            exact ⟨st2, e2, hs2⟩
    | none =>
      have hfi : ∀ (i : Nat) (l : List (SpannedNode S)), (n :: l).filter (fun q => s.childField takes q.value.nodeName.value = some i) =
          l.filter (fun q => s.childField takes q.value.nodeName.value = some i) := fun i l => by
        rw [List.filter_cons_of_neg (by simp [hf])]
      have hfn : ∀ l : List (SpannedNode S), (n :: l).filter (fun q => s.childField takes q.value.nodeName.value = none) =
          n :: l.filter (fun q => s.childField takes q.value.nodeName.value = none) := fun l => by
        rw [List.filter_cons_of_pos (by simpa using hf)]
      simp only [hfi, hfn]
      cases hvp : s.varChildren with
      | none =>
        have key : ∀ c, childLoop s (n :: nodes) flds var c =
            (D.emit (unexpectedNode n) >>= fun _ => childLoop s nodes flds var) c := by
          intro c
          rw [childLoop, D.bind_ok (childArms_none hn hl hf c)]
          dsimp only
          rw [if_neg (by simp), hvp]
        refine ((Settles.emit_bind _ (fun _ => (ih flds var hl).keeps) fun _ => (ih flds var hl).live).congr key).imp ?_
        rintro ⟨flds', var'⟩
        simp
      | some vp =>
        have key : ∀ c, childLoop s (n :: nodes) flds var c =
            (vp.decoder n >>= fun y => childLoop s nodes flds (var ++ [y])) c := by
          intro c
          rw [childLoop, D.bind_ok (childArms_none hn hl hf c)]
          dsimp only
          rw [if_neg (by simp), hvp]
        refine (((hv vp hvp n).bind fun y => ih flds (var ++ [y]) hl).congr key).imp ?_
        rintro ⟨flds', var'⟩
        rw [hvp]
        dsimp only
        constructor
        · rintro ⟨y, hy, h1, h2, ps, h3, h4⟩
          exact ⟨h1, h2, y :: ps, by simp [h3], .cons hy h4⟩
        · rintro ⟨h1, h2, ps, h3, h4⟩
          cases h4 with
          | @cons _ y _ ps hy h4 => exact ⟨y, hy, h1, h2, ps, by simp [h3], h4⟩

/-- The whole of the children. -/
theorem decodeChildren_settles {s : Struct E S V} {takes} (hn : s.ChildNames takes) {sp : Option S} {nodes : List (SpannedNode S)}
    {Eff : Nat → SpannedNode S → FVal V → FVal V → Prop}
    (hE : ∀ (i : Nat) (ch : Child E S V), s.children[i]? = some ch → ∀ x n, Settles (childEffect ch x n) (Eff i n x))
    {RV : SpannedNode S → FVal V → Prop}
    (hv : ∀ vc, s.varChildren = some vc → ∀ n, Settles (vc.decoder n) (RV n))
    {F : Nat → FVal V → FVal V → Prop}
    (hF : ∀ (i : Nat) (p : Child E S V) st, s.children[i]? = some p → Settles (p.finish sp st) (F i st)) :
    Settles (decodeChildren s sp nodes) fun env => ∃ e,
      Fills (fun p : Child E S V => p.field)
        (fun i p x => ∃ st, Steps (Eff i) (s.nodesFor takes nodes (some i)) p.init st ∧ F i st x) s.children e ∧
      match s.varChildren with
      | some vp => ∃ ps, env = e ++ [(vp.field, .list ps)] ∧ Each2 RV (s.nodesFor takes nodes none) ps
      | none => env = e ∧ s.nodesFor takes nodes none = [] := by
  have fin : ∀ r : List (FVal V) × List (FVal V),
      Settles (finishChildren sp (s.children.zip r.1)) (Fills (fun b : Child E S V × FVal V => b.1.field)
        (fun i _ x => ∃ st, r.1[i]? = some st ∧ F i st x) (s.children.zip r.1)) := fun r =>
    finishChildren_settles (F := fun i x => ∃ st, r.1[i]? = some st ∧ F i st x) _ fun i b hb => by
      obtain ⟨p, st⟩ := b
      obtain ⟨h1, h2⟩ := List.getElem?_zip_eq_some.1 hb
      refine (hF i p st h1).imp fun x => ?_
      dsimp only at h2 ⊢
      simp [h2]
  have last : ∀ (r : List (FVal V) × List (FVal V)) (e : Env V), Settles (E := E) (S := S)
      (match s.varChildren with
        | some vp => pure (e ++ [(vp.field, .list r.2)])
        | none => pure e) fun env => env = match s.varChildren with
          | some vp => e ++ [(vp.field, .list r.2)]
          | none => e := by
    intro r e
    cases s.varChildren <;> exact Settles.pure _
  refine ((childLoop_settles hn hE hv nodes (s.children.map (·.init)) [] (by simp)).bind fun r =>
    (fin r).bind fun e => last r e).imp fun env => ?_
  have zipmap : ∀ l : List (FVal V), l.length = s.children.length →
      (s.children.zip l).map (fun b => b.1.field) = s.children.map (·.field) := by
    intro l hl
    have hz : (s.children.zip l).map (·.1) = s.children := by
      rw [← List.unzip_fst, List.unzip_zip hl.symm]
    have := congrArg (List.map fun p : Child E S V => p.field) hz
    rw [List.map_map] at this
    exact this
  constructor
  · rintro ⟨⟨sts, var⟩, ⟨h1, h2, ps, h3, h4⟩, e, ⟨h5, h6⟩, h7⟩
    dsimp only at h1 h2 h3 h5 h6 h7
    refine ⟨e, ⟨h5.trans (zipmap _ h1), ?_⟩, ?_⟩
    · intro i p y hp hy
      obtain ⟨st, hst, hs⟩ := h2 i p p.init hp (by simp [hp])
      obtain ⟨st', e1, hf⟩ := h6 i (p, st) y (List.getElem?_zip_eq_some.2 ⟨hp, hst⟩) hy
      rw [hst, Option.some.injEq] at e1
      subst e1
      exact ⟨st, hs, hf⟩
    · rw [List.nil_append] at h3
      subst h3
      cases hvp : s.varChildren with
      | none => rw [hvp] at h4 h7; exact ⟨h7, h4.2⟩
      | some vp => rw [hvp] at h4 h7; exact ⟨var, h7, h4⟩
  · rintro ⟨e, ⟨h1, h2⟩, h3⟩
    have hlen : e.length = s.children.length := by simpa using congrArg List.length h1
    obtain ⟨sts, hl, hsts⟩ := choose_list (P := fun i st => ∀ p y, s.children[i]? = some p → e[i]? = some y →
        Steps (Eff i) (s.nodesFor takes nodes (some i)) p.init st ∧ F i st y.2) s.children.length (by
      intro i hi
      obtain ⟨st, hs, hf⟩ := h2 i s.children[i] e[i] (by simp) (by simp)
      refine ⟨st, fun p y hp hy => ?_⟩
      obtain ⟨_, rfl⟩ := List.getElem?_eq_some_iff.1 hp
      obtain ⟨_, rfl⟩ := List.getElem?_eq_some_iff.1 hy
      exact ⟨hs, hf⟩)
    have hget : ∀ (i : Nat) p, s.children[i]? = some p → ∃ y, e[i]? = some y := by
      intro i p hp
      have := (List.getElem?_eq_some_iff.1 hp).1
      exact ⟨e[i], by simp⟩
    have loop : ∀ (i : Nat) (p : Child E S V) st, s.children[i]? = some p → (s.children.map (·.init))[i]? = some st →
        ∃ st', sts[i]? = some st' ∧ Steps (Eff i) (s.nodesFor takes nodes (some i)) st st' := by
      intro i p st hp hst
      obtain ⟨y, hy⟩ := hget i p hp
      have hi := (List.getElem?_eq_some_iff.1 hp).1
      have hst' : sts[i]? = some sts[i] := by simp
      have := hsts i _ hst' p y hp hy
      rw [List.getElem?_map, hp, Option.map_some, Option.some.injEq] at hst
      subst hst
      exact ⟨_, hst', this.1⟩
    have fills : Fills (fun b : Child E S V × FVal V => b.1.field)
        (fun i _ x => ∃ st, sts[i]? = some st ∧ F i st x) (s.children.zip sts) e := by
      refine ⟨h1.trans (zipmap sts hl).symm, ?_⟩
      rintro i ⟨p, st⟩ y hb hy
      obtain ⟨hp, hst⟩ := List.getElem?_zip_eq_some.1 hb
      exact ⟨st, hst, (hsts i st hst p y hp hy).2⟩
    cases hvp : s.varChildren with
    | none =>
      rw [hvp] at h3
      exact ⟨(sts, []), ⟨hl, loop, [], rfl, rfl, h3.2⟩, e, fills, h3.1⟩
    | some vp =>
      rw [hvp] at h3
      obtain ⟨ps, h3, h4⟩ := h3
      exact ⟨(sts, ps), ⟨hl, loop, ps, rfl, h4⟩, e, fills, h3⟩

end

end Knuffel
