import Verif.Spec.Tame
import Verif.Theory.Decode
/-!
# The computations of decoders are tame
-/

set_option linter.unusedSectionVars false

namespace Knuffel
variable {E S V α β : Type}

theorem Tame.pure (a : α) : Tame (Pure.pure a : D E S α) := fun es ext => by
  simp [D.pure_eq, Out.Leaves, Out.after]
theorem Tame.emit (e : DErr S) : Tame (D.emit e : D E S Unit) := fun es ext => by
  simp [D.emit, Ctx.emitError, Out.Leaves, Out.after]
theorem Tame.fail (e : DErr S) : Tame (D.fail e : D E S α) := fun es ext => by
  simp [D.fail, Out.Leaves, Out.after]

theorem Tame.bind {x : D E S α} {f : α → D E S β} (hx : Tame x) (hf : ∀ a, Tame (f a)) : Tame (x >>= f) := by
  intro es ext
  obtain ⟨h1, h2⟩ := hx es ext
  cases h : x ⟨[], ext⟩ with
  | ok a c1 =>
    rw [h] at h1 h2
    obtain ⟨es1, ext1⟩ := c1
    simp only [Out.Leaves] at h1
    subst h1
    obtain ⟨h3, h4⟩ := hf a es1 ext1
    obtain ⟨-, h5⟩ := hf a (es ++ es1) ext1
    rw [D.bind_ok h, D.bind_ok h2, h4, h5]
    cases h' : f a ⟨[], ext1⟩ with
    | ok b c2 => rw [h'] at h3; exact ⟨h3, by simp [Out.after]⟩
    | err e c2 => rw [h'] at h3; exact ⟨h3, by simp [Out.after]⟩
    | panic => rw [h'] at h3; exact h3.elim
  | err e c1 => rw [h] at h1 h2; rw [D.bind_err h, D.bind_err h2]; exact ⟨h1, rfl⟩
  | panic => rw [h] at h1; exact h1.elim

theorem Tame.forEach {f : α → D E S Unit} (hf : ∀ a, Tame (f a)) (l : List α) : Tame (D.forEach f l) := by
  induction l with
  | nil => exact Tame.pure ()
  | cons x xs ih => exact (hf x).bind fun _ => ih

theorem Tame.collect {f : α → D E S β} {l : List α} (hf : ∀ a, Tame (f a)) : Tame (D.collect f l) := by
  induction l with
  | nil => exact Tame.pure []
  | cons x xs ih => exact (hf x).bind fun _ => ih.bind fun _ => Tame.pure _

variable [Externals]

omit [Externals] in
theorem Tame.ite {p : Prop} [Decidable p] {x y : D E S α} (hx : Tame x) (hy : Tame y) : Tame (if p then x else y) := by
  split <;> assumption

theorem Tame.liftConv (x : Spanned α S) (r : Except Str (FVal V)) : Tame (liftConv (E := E) x r) := by
  cases r
  · exact Tame.fail _
  · exact Tame.pure _

theorem Tame.strTypeCheck (t : Option (Spanned TypeName S)) : Tame (strTypeCheck (E := E) t) := by
  cases t
  · exact Tame.pure _
  · exact Tame.emit _

theorem Tame.decodeBytes (v : Value S) : Tame (decodeBytes (E := E) v) := by
  unfold Knuffel.decodeBytes
  split
  · split
    · split
      · split
        · exact Tame.pure _
        · exact (Tame.emit _).bind fun _ => Tame.pure _
      · exact (Tame.emit _).bind fun _ => Tame.pure _
    · exact (Tame.emit _).bind fun _ => Tame.pure _
  · split
    · exact Tame.pure _
    · exact (Tame.emit _).bind fun _ => Tame.pure _

theorem Tame.decodeValue {i : Impls E S V} (h : i.Tame) (m o) (v : Value S) : Tame (decodeValue m o i v) := by
  unfold Knuffel.decodeValue
  split
  · exact h.scalar _
  · refine (Tame.strTypeCheck _).bind fun _ => ?_
    split
    · exact (Tame.liftConv _ _).bind fun _ => Tame.pure _
    · exact Tame.pure _
    · exact (Tame.emit _).bind fun _ => Tame.pure _
  · refine (Tame.strTypeCheck _).bind fun _ => ?_
    split
    · exact Tame.liftConv _ _
    · exact Tame.fail _
  · split
    · exact Tame.pure _
    · refine (Tame.decodeBytes _).bind fun _ => ?_
      split
      · exact Tame.pure _
      · exact (Tame.emit _).bind fun _ => Tame.pure _
  · exact (Tame.decodeBytes _).bind fun _ => Tame.liftConv _ _

omit [Externals] in
theorem Tame.checkFlagNode (n : SpannedNode S) : Tame (checkFlagNode (E := E) n) := by
  unfold Knuffel.checkFlagNode
  refine (Tame.forEach (fun _ => Tame.emit _) _).bind fun _ => (Tame.forEach (fun _ => Tame.emit _) _).bind fun _ => ?_
  split
  · exact Tame.forEach (fun _ => Tame.emit _) _
  · exact Tame.pure _

theorem Tame.decodeSpans (node : SpannedNode S) (l : List (SpanField E S V)) (h : ∀ f ∈ l, f.impls.Tame) :
    Tame (decodeSpans node l) := by
  induction l with
  | nil => exact Tame.pure _
  | cons f fs ih =>
    exact ((h f (by simp)).span _).bind fun _ => (ih fun g hg => h g (by simp [hg])).bind fun _ => Tame.pure _

theorem Tame.decodeNodeNames (node : SpannedNode S) (l : List (NodeNameField E S V)) : Tame (decodeNodeNames node l) := by
  induction l with
  | nil => exact Tame.pure _
  | cons f fs ih => exact (Tame.liftConv _ _).bind fun _ => ih.bind fun _ => Tame.pure _

theorem Tame.decodeTypeName (node : SpannedNode S) (f : TypeNameField E S V) : Tame (decodeTypeName node f) := by
  unfold Knuffel.decodeTypeName
  split
  · exact (Tame.liftConv _ _).bind fun _ => Tame.pure _
  · exact Tame.ite (Tame.pure _) (Tame.fail _)

theorem Tame.decodeTypeNames (node : SpannedNode S) (l : List (TypeNameField E S V)) : Tame (decodeTypeNames node l) := by
  induction l with
  | nil => exact Tame.pure _
  | cons f fs ih => exact (Tame.decodeTypeName _ _).bind fun _ => ih.bind fun _ => Tame.pure _

/-- The check for a type name nobody asked for. -/
theorem Tame.noTypeName (b : Bool) (t : Option (Spanned TypeName S)) (env : Env V) :
    Tame (E := E) (do
      if b then
        match t with
        | some tn => D.emit (DErr.unexp tn "type name".toList "no type name expected for this node".toList)
        | none => Pure.pure ()
      Pure.pure env) := by
  cases b
  · exact (Tame.pure _).bind fun _ => Tame.pure _
  · cases t
    · exact (Tame.pure _).bind fun _ => Tame.pure _
    · exact (Tame.emit _).bind fun _ => Tame.pure _

theorem Tame.decodeSpecials {s : Struct E S V} (h : s.Tame) (node : SpannedNode S) : Tame (decodeSpecials s node) := by
  unfold Knuffel.decodeSpecials
  exact (Tame.decodeSpans _ _ h.spans).bind fun _ => (Tame.decodeNodeNames _ _).bind fun _ =>
    (Tame.decodeTypeNames _ _).bind fun _ => Tame.noTypeName _ _ _

theorem Tame.decodeArg (node : SpannedNode S) (a : Arg E S V) (h : a.impls.Tame) (args) : Tame (decodeArg node a args) := by
  unfold Knuffel.decodeArg
  split
  · exact (Tame.decodeValue h _ _ _).bind fun _ => Tame.pure _
  · exact Tame.pure _
  · exact Tame.pure _
  · exact Tame.fail _

theorem Tame.decodeArgList (node : SpannedNode S) (l : List (Arg E S V)) (h : ∀ f ∈ l, f.impls.Tame) (args) :
    Tame (decodeArgList node l args) := by
  induction l generalizing args with
  | nil => exact Tame.pure _
  | cons a as ih =>
    exact (Tame.decodeArg _ _ (h a (by simp)) _).bind fun _ =>
      (ih (fun g hg => h g (by simp [hg])) _).bind fun _ => Tame.pure _

theorem Tame.decodeArgs {s : Struct E S V} (h : s.Tame) (node : SpannedNode S) : Tame (decodeArgs s node) := by
  unfold Knuffel.decodeArgs
  refine (Tame.decodeArgList _ _ h.arguments _).bind fun r => ?_
  split
  · rename_i va hva
    exact (Tame.collect fun _ => Tame.decodeValue (h.varArgs va hva) _ _ _).bind fun _ => Tame.pure _
  · split
    · exact Tame.fail _
    · exact Tame.pure _

theorem Tame.propArms (name : Spanned Str S) (val : Value S) (l : List (Prop' E S V × PropState V))
    (h : ∀ f ∈ l, f.1.impls.Tame) : Tame (propArms name val l) := by
  induction l with
  | nil => exact Tame.pure _
  | cons a as ih =>
    obtain ⟨p, st⟩ := a
    have ih := ih fun f hf => h f (by simp [hf])
    have hp := h (p, st) (by simp)
    unfold Knuffel.propArms
    refine Tame.ite ?_ (Tame.ite ?_ ?_)
    · exact (hp.insertProperty _ _ _).bind fun r => Tame.ite (Tame.pure _) (ih.bind fun _ => Tame.pure _)
    · exact (Tame.decodeValue hp _ _ _).bind fun r => Tame.ite (Tame.pure _) (Tame.pure _)
    · exact ih.bind fun _ => Tame.pure _

theorem Tame.propLoop {s : Struct E S V} (h : s.Tame) (l : List (Spanned Str S × Value S)) (sts var) :
    Tame (propLoop s l sts var) := by
  induction l generalizing sts var with
  | nil => exact Tame.pure _
  | cons a as ih =>
    obtain ⟨name, val⟩ := a
    unfold Knuffel.propLoop
    refine (Tame.propArms _ _ _ fun f hf => h.properties _ (List.of_mem_zip hf).1).bind fun r => Tame.ite (ih _ _) ?_
    split
    · rename_i vp hvp
      exact (Tame.liftConv _ _).bind fun _ => (Tame.decodeValue (h.varProps vp hvp) _ _ _).bind fun _ => ih _ _
    · exact Tame.fail _

theorem Tame.propFinish (p : Prop' E S V) (node : SpannedNode S) (st) : Tame (p.finish node st) := by
  unfold Prop'.finish
  refine Tame.ite (Tame.pure _) ?_
  split
  · exact Tame.pure _
  · split
    · exact Tame.pure _
    · exact Tame.pure _
  · exact Tame.pure _
  · split
    · exact Tame.pure _
    · exact Tame.fail _

theorem Tame.finishProps (node : SpannedNode S) (l : List (Prop' E S V × PropState V)) : Tame (finishProps node l) := by
  induction l with
  | nil => exact Tame.pure _
  | cons a as ih => exact (Tame.propFinish _ _ _).bind fun _ => ih.bind fun _ => Tame.pure _

theorem Tame.decodeProps {s : Struct E S V} (h : s.Tame) (node : SpannedNode S) : Tame (decodeProps s node) := by
  unfold Knuffel.decodeProps
  refine (Tame.propLoop h _ _ _).bind fun r => (Tame.finishProps _ _).bind fun _ => ?_
  split <;> exact Tame.pure _

theorem Tame.childArm (ch : Child E S V) (h : ∀ n, Tame (ch.decoder n)) (fld) (n : SpannedNode S) :
    Tame (childArm ch fld n) := by
  unfold Knuffel.childArm
  split
  · exact (h _).bind fun _ => Tame.pure _
  · exact Tame.ite (Tame.fail _) ((h _).bind fun _ => Tame.pure _)
  · refine (Tame.checkFlagNode _).bind fun _ => ?_
    split
    · exact (Tame.emit _).bind fun _ => Tame.pure _
    · exact Tame.pure _
  · exact Tame.pure _

theorem Tame.childArms (n : SpannedNode S) (l : List (Child E S V × FVal V))
    (h : ∀ f ∈ l, f.1.impls.Tame ∧ ∀ n, Tame (f.1.decoder n)) : Tame (childArms n l) := by
  induction l with
  | nil => exact Tame.pure _
  | cons a as ih =>
    obtain ⟨p, st⟩ := a
    have ih := ih fun f hf => h f (by simp [hf])
    have hp := h (p, st) (by simp)
    unfold Knuffel.childArms
    refine Tame.ite ?_ (Tame.ite ?_ ?_)
    · exact (hp.1.insertChild _ _).bind fun r => Tame.ite (Tame.pure _) (ih.bind fun _ => Tame.pure _)
    · exact (Tame.childArm _ hp.2 _ _).bind fun r => Tame.pure _
    · exact ih.bind fun _ => Tame.pure _

theorem Tame.childLoop {s : Struct E S V} (h : s.Tame) (l : List (SpannedNode S)) (flds var) :
    Tame (childLoop s l flds var) := by
  induction l generalizing flds var with
  | nil => exact Tame.pure _
  | cons a as ih =>
    unfold Knuffel.childLoop
    refine (Tame.childArms _ _ fun f hf => h.children _ (List.of_mem_zip hf).1).bind fun r => Tame.ite (ih _ _) ?_
    split
    · rename_i vp hvp
      exact (h.varChildren vp hvp _).bind fun _ => ih _ _
    · exact (Tame.emit _).bind fun _ => ih _ _

theorem Tame.childFinish (ch : Child E S V) (sp : Option S) (fld) : Tame (E := E) (ch.finish sp fld) := by
  unfold Child.finish
  split
  · exact Tame.pure _
  · exact Tame.pure _
  · split <;> exact Tame.pure _
  · split
    · split <;> exact Tame.pure _
    · exact Tame.pure _
    · split
      · exact Tame.pure _
      · exact Tame.fail _

theorem Tame.finishChildren (sp : Option S) (l : List (Child E S V × FVal V)) : Tame (finishChildren sp l) := by
  induction l with
  | nil => exact Tame.pure _
  | cons a as ih => exact (Tame.childFinish _ _ _).bind fun _ => ih.bind fun _ => Tame.pure _

theorem Tame.decodeChildren {s : Struct E S V} (h : s.Tame) (sp : Option S) (ns) : Tame (decodeChildren s sp ns) := by
  unfold Knuffel.decodeChildren
  refine (Tame.childLoop h _ _ _).bind fun r => (Tame.finishChildren _ _).bind fun _ => ?_
  split <;> exact Tame.pure _

theorem Tame.decodeContent {s : Struct E S V} (h : s.Tame) (node : SpannedNode S) : Tame (decodeContent s node) :=
  (Tame.decodeArgs h _).bind fun _ => (Tame.decodeProps h _).bind fun _ =>
    (Tame.decodeChildren h _ _).bind fun _ => Tame.pure _

/-- A derived `decode_node` is tame if the implementations it uses are. -/
theorem Struct.Tame.node {s : Struct E S V} (h : s.Tame) (n : SpannedNode S) : Knuffel.Tame (s.node n) :=
  (Tame.decodeSpecials h _).bind fun _ => (Tame.decodeContent h _).bind fun _ => Tame.pure _

theorem Struct.Tame.root {s : Struct E S V} (h : s.Tame) (ns : List (SpannedNode S)) : Knuffel.Tame (s.root ns) :=
  (Tame.decodeChildren h _ _).bind fun _ => Tame.pure _

theorem Tame.insertPropertyArms (name : Spanned Str S) (val : Value S) (l : List (Prop' E S V)) (self : FVal V)
    (h : ∀ f ∈ l, f.impls.Tame) : Tame (insertPropertyArms name val l self) := by
  induction l generalizing self with
  | nil => exact Tame.pure _
  | cons p as ih =>
    have ih := fun x => ih x fun f hf => h f (by simp [hf])
    have hp := h p (by simp)
    unfold Knuffel.insertPropertyArms
    refine Tame.ite ?_ (Tame.ite ?_ (ih _))
    · exact (hp.insertProperty _ _ _).bind fun r => Tame.ite (Tame.pure _) (ih _)
    · exact (Tame.decodeValue hp _ _ _).bind fun r => Tame.pure _

theorem Tame.insertChildArms (n : SpannedNode S) (l : List (Child E S V)) (self : FVal V)
    (h : ∀ f ∈ l, f.impls.Tame ∧ ∀ n, Tame (f.decoder n)) : Tame (insertChildArms n l self) := by
  induction l generalizing self with
  | nil => exact Tame.pure _
  | cons p as ih =>
    have ih := fun x => ih x fun f hf => h f (by simp [hf])
    have hp := h p (by simp)
    unfold Knuffel.insertChildArms
    refine Tame.ite ?_ (Tame.ite (Tame.ite ?_ ?_) (ih _))
    · exact (hp.1.insertChild _ _).bind fun r => Tame.ite (Tame.pure _) (ih _)
    · refine (Tame.checkFlagNode _).bind fun _ => ?_
      split
      · exact (Tame.emit _).bind fun _ => Tame.pure _
      · exact Tame.pure _
    · have hf : ∀ v : FVal V, Tame (E := E) (S := S) (if p.mode = .multi
          then Pure.pure (true, self.setField p.field ((self.field p.field).push v))
          else Pure.pure (true, self.setField p.field (.some v)) : D E S (Bool × FVal V)) :=
        fun v => Tame.ite (Tame.pure _) (Tame.pure _)
      have hr := fun _ : Unit => (hp.2 n).bind hf
      cases (self.field p.field).isSome
      · exact hr ()
      · exact Tame.bind (Tame.emit _) hr

end Knuffel
