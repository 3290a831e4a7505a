import Verif.Spec.Derive
import Verif.Theory.Decode
/-!
# Derived decoders never take back errors
-/

set_option linter.unusedSectionVars false

namespace Knuffel
variable {E S V α β : Type} [Externals]

omit [Externals] in
theorem Keeps.ite {p : Prop} [Decidable p] {x y : D E S α} (hx : Keeps x) (hy : Keeps y) : Keeps (if p then x else y) := by
  split <;> assumption

theorem Keeps.liftConv (x : Spanned α S) (r : Except Str (FVal V)) : Keeps (liftConv (E := E) x r) := by
  cases r
  · exact Keeps.fail _
  · exact Keeps.pure _

theorem Keeps.strTypeCheck (t : Option (Spanned TypeName S)) : Keeps (strTypeCheck (E := E) t) := by
  cases t
  · exact Keeps.pure _
  · exact Keeps.emit _

theorem Keeps.decodeBytes (v : Value S) : Keeps (decodeBytes (E := E) v) := by
  unfold Knuffel.decodeBytes
  split
  · split
    · split
      · split
        · exact Keeps.pure _
        · exact (Keeps.emit _).bind fun _ => Keeps.pure _
      · exact (Keeps.emit _).bind fun _ => Keeps.pure _
    · exact (Keeps.emit _).bind fun _ => Keeps.pure _
  · split
    · exact Keeps.pure _
    · exact (Keeps.emit _).bind fun _ => Keeps.pure _

theorem Keeps.decodeValue {i : Impls E S V} (h : i.Keeps) (m o) (v : Value S) : Keeps (decodeValue m o i v) := by
  unfold Knuffel.decodeValue
  split
  · exact h.scalar _
  · refine (Keeps.strTypeCheck _).bind fun _ => ?_
    split
    · exact (Keeps.liftConv _ _).bind fun _ => Keeps.pure _
    · exact Keeps.pure _
    · exact (Keeps.emit _).bind fun _ => Keeps.pure _
  · refine (Keeps.strTypeCheck _).bind fun _ => ?_
    split
    · exact Keeps.liftConv _ _
    · exact Keeps.fail _
  · split
    · exact Keeps.pure _
    · refine (Keeps.decodeBytes _).bind fun _ => ?_
      split
      · exact Keeps.pure _
      · exact (Keeps.emit _).bind fun _ => Keeps.pure _
  · exact (Keeps.decodeBytes _).bind fun _ => Keeps.liftConv _ _

omit [Externals] in
theorem Keeps.checkFlagNode (n : SpannedNode S) : Keeps (checkFlagNode (E := E) n) := by
  intro c
  rw [checkFlagNode_eq]
  exact List.prefix_append _ _

theorem Keeps.decodeSpans (node : SpannedNode S) (l : List (SpanField E S V)) (h : ∀ f ∈ l, f.impls.Keeps) :
    Keeps (decodeSpans node l) := by
  induction l with
  | nil => exact Keeps.pure _
  | cons f fs ih =>
    exact ((h f (by simp)).span _).bind fun _ => (ih fun g hg => h g (by simp [hg])).bind fun _ => Keeps.pure _

theorem Keeps.decodeNodeNames (node : SpannedNode S) (l : List (NodeNameField E S V)) : Keeps (decodeNodeNames node l) := by
  induction l with
  | nil => exact Keeps.pure _
  | cons f fs ih => exact (Keeps.liftConv _ _).bind fun _ => ih.bind fun _ => Keeps.pure _

theorem Keeps.decodeTypeName (node : SpannedNode S) (f : TypeNameField E S V) : Keeps (decodeTypeName node f) := by
  unfold Knuffel.decodeTypeName
  split
  · exact (Keeps.liftConv _ _).bind fun _ => Keeps.pure _
  · exact Keeps.ite (Keeps.pure _) (Keeps.fail _)

theorem Keeps.decodeTypeNames (node : SpannedNode S) (l : List (TypeNameField E S V)) : Keeps (decodeTypeNames node l) := by
  induction l with
  | nil => exact Keeps.pure _
  | cons f fs ih => exact (Keeps.decodeTypeName _ _).bind fun _ => ih.bind fun _ => Keeps.pure _

/-- The check for a type name nobody asked for. -/
theorem Keeps.noTypeName (b : Bool) (t : Option (Spanned TypeName S)) (env : Env V) :
    Keeps (E := E) (do
      if b then
        match t with
        | some tn => D.emit (DErr.unexp tn "type name".toList "no type name expected for this node".toList)
        | none => Pure.pure ()
      Pure.pure env) := by
  cases b
  · exact (Keeps.pure _).bind fun _ => Keeps.pure _
  · cases t
    · exact (Keeps.pure _).bind fun _ => Keeps.pure _
    · exact (Keeps.emit _).bind fun _ => Keeps.pure _

theorem Keeps.decodeSpecials {s : Struct E S V} (h : s.Keeps) (node : SpannedNode S) : Keeps (decodeSpecials s node) := by
  unfold Knuffel.decodeSpecials
  exact (Keeps.decodeSpans _ _ h.spans).bind fun _ => (Keeps.decodeNodeNames _ _).bind fun _ =>
    (Keeps.decodeTypeNames _ _).bind fun _ => Keeps.noTypeName _ _ _

theorem Keeps.decodeArg (node : SpannedNode S) (a : Arg E S V) (h : a.impls.Keeps) (args) : Keeps (decodeArg node a args) := by
  unfold Knuffel.decodeArg
  split
  · exact (Keeps.decodeValue h _ _ _).bind fun _ => Keeps.pure _
  · exact Keeps.pure _
  · exact Keeps.pure _
  · exact Keeps.fail _

theorem Keeps.decodeArgList (node : SpannedNode S) (l : List (Arg E S V)) (h : ∀ f ∈ l, f.impls.Keeps) (args) :
    Keeps (decodeArgList node l args) := by
  induction l generalizing args with
  | nil => exact Keeps.pure _
  | cons a as ih =>
    exact (Keeps.decodeArg _ _ (h a (by simp)) _).bind fun _ =>
      (ih (fun g hg => h g (by simp [hg])) _).bind fun _ => Keeps.pure _

theorem Keeps.decodeArgs {s : Struct E S V} (h : s.Keeps) (node : SpannedNode S) : Keeps (decodeArgs s node) := by
  unfold Knuffel.decodeArgs
  refine (Keeps.decodeArgList _ _ h.arguments _).bind fun r => ?_
  split
  · rename_i va hva
    exact (Keeps.collect fun _ => Keeps.decodeValue (h.varArgs va hva) _ _ _).bind fun _ => Keeps.pure _
  · split
    · exact Keeps.fail _
    · exact Keeps.pure _

theorem Keeps.propArms (name : Spanned Str S) (val : Value S) (l : List (Prop' E S V × PropState V))
    (h : ∀ f ∈ l, f.1.impls.Keeps) : Keeps (propArms name val l) := by
  induction l with
  | nil => exact Keeps.pure _
  | cons a as ih =>
    obtain ⟨p, st⟩ := a
    have ih := ih fun f hf => h f (by simp [hf])
    have hp := h (p, st) (by simp)
    unfold Knuffel.propArms
    refine Keeps.ite ?_ (Keeps.ite ?_ ?_)
    · exact (hp.insertProperty _ _ _).bind fun r => Keeps.ite (Keeps.pure _) (ih.bind fun _ => Keeps.pure _)
    · exact (Keeps.decodeValue hp _ _ _).bind fun r => Keeps.ite (Keeps.pure _) (Keeps.pure _)
    · exact ih.bind fun _ => Keeps.pure _

theorem Keeps.propLoop {s : Struct E S V} (h : s.Keeps) (l : List (Spanned Str S × Value S)) (sts var) :
    Keeps (propLoop s l sts var) := by
  induction l generalizing sts var with
  | nil => exact Keeps.pure _
  | cons a as ih =>
    obtain ⟨name, val⟩ := a
    unfold Knuffel.propLoop
    refine (Keeps.propArms _ _ _ fun f hf => h.properties _ (List.of_mem_zip hf).1).bind fun r => Keeps.ite (ih _ _) ?_
    split
    · rename_i vp hvp
      exact (Keeps.liftConv _ _).bind fun _ => (Keeps.decodeValue (h.varProps vp hvp) _ _ _).bind fun _ => ih _ _
    · exact Keeps.fail _

theorem Keeps.propFinish (p : Prop' E S V) (node : SpannedNode S) (st) : Keeps (p.finish node st) := by
  unfold Prop'.finish
  refine Keeps.ite (Keeps.pure _) ?_
  split
  · exact Keeps.pure _
  · split
    · exact Keeps.pure _
    · exact Keeps.pure _
  · exact Keeps.pure _
  · split
    · exact Keeps.pure _
    · exact Keeps.fail _

theorem Keeps.finishProps (node : SpannedNode S) (l : List (Prop' E S V × PropState V)) : Keeps (finishProps node l) := by
  induction l with
  | nil => exact Keeps.pure _
  | cons a as ih => exact (Keeps.propFinish _ _ _).bind fun _ => ih.bind fun _ => Keeps.pure _

theorem Keeps.decodeProps {s : Struct E S V} (h : s.Keeps) (node : SpannedNode S) : Keeps (decodeProps s node) := by
  unfold Knuffel.decodeProps
  refine (Keeps.propLoop h _ _ _).bind fun r => (Keeps.finishProps _ _).bind fun _ => ?_
  split <;> exact Keeps.pure _

theorem Keeps.childArm (ch : Child E S V) (h : ∀ n, Keeps (ch.decoder n)) (fld) (n : SpannedNode S) :
    Keeps (childArm ch fld n) := by
  unfold Knuffel.childArm
  split
  · exact (h _).bind fun _ => Keeps.pure _
  · exact Keeps.ite (Keeps.fail _) ((h _).bind fun _ => Keeps.pure _)
  · refine (Keeps.checkFlagNode _).bind fun _ => ?_
    split
    · exact (Keeps.emit _).bind fun _ => Keeps.pure _
    · exact Keeps.pure _
  · exact Keeps.pure _

theorem Keeps.childArms (n : SpannedNode S) (l : List (Child E S V × FVal V))
    (h : ∀ f ∈ l, f.1.impls.Keeps ∧ ∀ n, Keeps (f.1.decoder n)) : Keeps (childArms n l) := by
  induction l with
  | nil => exact Keeps.pure _
  | cons a as ih =>
    obtain ⟨p, st⟩ := a
    have ih := ih fun f hf => h f (by simp [hf])
    have hp := h (p, st) (by simp)
    unfold Knuffel.childArms
    refine Keeps.ite ?_ (Keeps.ite ?_ ?_)
    · exact (hp.1.insertChild _ _).bind fun r => Keeps.ite (Keeps.pure _) (ih.bind fun _ => Keeps.pure _)
    · exact (Keeps.childArm _ hp.2 _ _).bind fun r => Keeps.pure _
    · exact ih.bind fun _ => Keeps.pure _

theorem Keeps.childLoop {s : Struct E S V} (h : s.Keeps) (l : List (SpannedNode S)) (flds var) :
    Keeps (childLoop s l flds var) := by
  induction l generalizing flds var with
  | nil => exact Keeps.pure _
  | cons a as ih =>
    unfold Knuffel.childLoop
    refine (Keeps.childArms _ _ fun f hf => h.children _ (List.of_mem_zip hf).1).bind fun r => Keeps.ite (ih _ _) ?_
    split
    · rename_i vp hvp
      exact (h.varChildren vp hvp _).bind fun _ => ih _ _
    · exact (Keeps.emit _).bind fun _ => ih _ _

theorem Keeps.childFinish (ch : Child E S V) (sp : Option S) (fld) : Keeps (E := E) (ch.finish sp fld) := by
  unfold Child.finish
  split
  · exact Keeps.pure _
  · exact Keeps.pure _
  · split <;> exact Keeps.pure _
  · split
    · split <;> exact Keeps.pure _
    · exact Keeps.pure _
    · split
      · exact Keeps.pure _
      · exact Keeps.fail _

theorem Keeps.finishChildren (sp : Option S) (l : List (Child E S V × FVal V)) : Keeps (finishChildren sp l) := by
  induction l with
  | nil => exact Keeps.pure _
  | cons a as ih => exact (Keeps.childFinish _ _ _).bind fun _ => ih.bind fun _ => Keeps.pure _

theorem Keeps.decodeChildren {s : Struct E S V} (h : s.Keeps) (sp : Option S) (ns) : Keeps (decodeChildren s sp ns) := by
  unfold Knuffel.decodeChildren
  refine (Keeps.childLoop h _ _ _).bind fun r => (Keeps.finishChildren _ _).bind fun _ => ?_
  split <;> exact Keeps.pure _

theorem Keeps.decodeContent {s : Struct E S V} (h : s.Keeps) (node : SpannedNode S) : Keeps (decodeContent s node) :=
  (Keeps.decodeArgs h _).bind fun _ => (Keeps.decodeProps h _).bind fun _ =>
    (Keeps.decodeChildren h _ _).bind fun _ => Keeps.pure _

/-- A derived `decode_node` keeps errors if the implementations it uses do. -/
theorem Struct.Keeps.node {s : Struct E S V} (h : s.Keeps) (n : SpannedNode S) : Knuffel.Keeps (s.node n) :=
  (Keeps.decodeSpecials h _).bind fun _ => (Keeps.decodeContent h _).bind fun _ => Keeps.pure _

theorem Struct.Keeps.root {s : Struct E S V} (h : s.Keeps) (ns : List (SpannedNode S)) : Knuffel.Keeps (s.root ns) :=
  (Keeps.decodeChildren h _ _).bind fun _ => Keeps.pure _

theorem Keeps.insertPropertyArms (name : Spanned Str S) (val : Value S) (l : List (Prop' E S V)) (self : FVal V)
    (h : ∀ f ∈ l, f.impls.Keeps) : Keeps (insertPropertyArms name val l self) := by
  induction l generalizing self with
  | nil => exact Keeps.pure _
  | cons p as ih =>
    have ih := fun x => ih x fun f hf => h f (by simp [hf])
    have hp := h p (by simp)
    unfold Knuffel.insertPropertyArms
    refine Keeps.ite ?_ (Keeps.ite ?_ (ih _))
    · exact (hp.insertProperty _ _ _).bind fun r => Keeps.ite (Keeps.pure _) (ih _)
    · exact (Keeps.decodeValue hp _ _ _).bind fun r => Keeps.pure _

theorem Keeps.insertChildArms (n : SpannedNode S) (l : List (Child E S V)) (self : FVal V)
    (h : ∀ f ∈ l, f.impls.Keeps ∧ ∀ n, Keeps (f.decoder n)) : Keeps (insertChildArms n l self) := by
  induction l generalizing self with
  | nil => exact Keeps.pure _
  | cons p as ih =>
    have ih := fun x => ih x fun f hf => h f (by simp [hf])
    have hp := h p (by simp)
    unfold Knuffel.insertChildArms
    refine Keeps.ite ?_ (Keeps.ite (Keeps.ite ?_ ?_) (ih _))
    · exact (hp.1.insertChild _ _).bind fun r => Keeps.ite (Keeps.pure _) (ih _)
    · refine (Keeps.checkFlagNode _).bind fun _ => ?_
      split
      · exact (Keeps.emit _).bind fun _ => Keeps.pure _
      · exact Keeps.pure _
    · have hf : ∀ v : FVal V, Keeps (E := E) (S := S) (if p.mode = .multi
          then Pure.pure (true, self.setField p.field ((self.field p.field).push v))
          else Pure.pure (true, self.setField p.field (.some v)) : D E S (Bool × FVal V)) :=
        fun v => Keeps.ite (Keeps.pure _) (Keeps.pure _)
      have hr := fun _ : Unit => (hp.2 n).bind hf
      cases (self.field p.field).isSome
      · exact hr ()
      · exact Keeps.bind (Keeps.emit _) hr

end Knuffel
