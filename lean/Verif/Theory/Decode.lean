import Verif.Spec.Decode
/-!
# Lemmas about decoding computations
-/

namespace Knuffel
variable {E S α β γ : Type}

theorem D.pure_eq (a : α) (c : Ctx E S) : (pure a : D E S α) c = .ok a c := rfl

theorem D.bind_eq (x : D E S α) (f : α → D E S β) (c : Ctx E S) :
    (x >>= f) c = match x c with
      | .ok a c' => f a c'
      | .err e c' => .err e c'
      | .panic => .panic := rfl

theorem D.bind_ok {x : D E S α} {f : α → D E S β} {c c' : Ctx E S} {a : α} (h : x c = .ok a c') :
    (x >>= f) c = f a c' := by rw [D.bind_eq, h]
theorem D.bind_err {x : D E S α} {f : α → D E S β} {c c' : Ctx E S} {e : DErr S} (h : x c = .err e c') :
    (x >>= f) c = .err e c' := by rw [D.bind_eq, h]
theorem D.bind_panic {x : D E S α} {f : α → D E S β} {c : Ctx E S} (h : x c = .panic) :
    (x >>= f) c = .panic := by rw [D.bind_eq, h]

theorem D.bind_ok_iff {x : D E S α} {f : α → D E S β} {c c' : Ctx E S} {b : β} :
    (x >>= f) c = .ok b c' ↔ ∃ a c1, x c = .ok a c1 ∧ f a c1 = .ok b c' := by
  rw [D.bind_eq]
  cases x c <;> simp [and_assoc]

theorem D.bind_err_iff {x : D E S α} {f : α → D E S β} {c c' : Ctx E S} {e : DErr S} :
    (x >>= f) c = .err e c' ↔ x c = .err e c' ∨ ∃ a c1, x c = .ok a c1 ∧ f a c1 = .err e c' := by
  rw [D.bind_eq]
  cases x c <;> simp [and_assoc]

theorem D.bind_panic_iff {x : D E S α} {f : α → D E S β} {c : Ctx E S} :
    (x >>= f) c = .panic ↔ x c = .panic ∨ ∃ a c1, x c = .ok a c1 ∧ f a c1 = .panic := by
  rw [D.bind_eq]
  cases x c <;> simp [and_assoc]

instance : LawfulMonad (D E S) := LawfulMonad.mk'
  (id_map := by
    intro α x; funext c
    show (match x c with | .ok a c' => _ | .err e c' => _ | .panic => _) = _
    cases x c <;> rfl)
  (pure_bind := by intros; rfl)
  (bind_assoc := by
    intro α β γ x f g; funext c
    simp only [D.bind_eq]
    cases x c <;> rfl)

@[simp] theorem D.emit_eq (e : DErr S) (c : Ctx E S) : D.emit e c = .ok () (c.emitError e) := rfl
@[simp] theorem D.fail_eq (e : DErr S) (c : Ctx E S) : (D.fail e : D E S α) c = .err e c := rfl
@[simp] theorem D.panic_eq (c : Ctx E S) : (D.panic : D E S α) c = .panic := rfl
@[simp] theorem Ctx.emitError_errors (c : Ctx E S) (e : DErr S) : (c.emitError e).errors = c.errors ++ [e] := rfl
@[simp] theorem Ctx.emitError_ext (c : Ctx E S) (e : DErr S) : (c.emitError e).extensions = c.extensions := rfl

/-- Recording `es` one after the other. -/
def Ctx.emitAll (c : Ctx E S) (es : List (DErr S)) : Ctx E S := { c with errors := c.errors ++ es }

@[simp] theorem Ctx.emitAll_nil (c : Ctx E S) : c.emitAll [] = c := by simp [Ctx.emitAll]
@[simp] theorem Ctx.emitAll_errors (c : Ctx E S) (es) : (c.emitAll es).errors = c.errors ++ es := rfl
theorem Ctx.emitAll_emitAll (c : Ctx E S) (es fs) : (c.emitAll es).emitAll fs = c.emitAll (es ++ fs) := by
  simp [Ctx.emitAll]
theorem Ctx.emitError_eq (c : Ctx E S) (e) : c.emitError e = c.emitAll [e] := rfl

theorem Ctx.hasErrors_iff (c : Ctx E S) : c.hasErrors = true ↔ c.errors ≠ [] := by
  simp [Ctx.hasErrors]

/-! ### `Keeps` -/

theorem Keeps.pure (a : α) : Keeps (Pure.pure a : D E S α) := fun _ => List.prefix_rfl
theorem Keeps.emit (e : DErr S) : Keeps (D.emit e : D E S Unit) := fun _ => List.prefix_append _ _
theorem Keeps.fail (e : DErr S) : Keeps (D.fail e : D E S α) := fun _ => List.prefix_rfl
theorem Keeps.panic : Keeps (D.panic : D E S α) := fun _ => trivial

theorem Keeps.bind {x : D E S α} {f : α → D E S β} (hx : Keeps x) (hf : ∀ a, Keeps (f a)) : Keeps (x >>= f) := by
  intro c
  have h1 := hx c
  cases h : x c with
  | ok a c1 =>
    rw [h] at h1
    have h2 := hf a c1
    rw [D.bind_ok h]
    cases h' : f a c1 with
    | ok b c2 => rw [h'] at h2; exact h1.trans h2
    | err e c2 => rw [h'] at h2; exact h1.trans h2
    | panic => trivial
  | err e c1 => rw [h] at h1; rw [D.bind_err h]; exact h1
  | panic => rw [D.bind_panic h]; trivial

theorem Keeps.ok {x : D E S α} (hx : Keeps x) {c c' : Ctx E S} {a : α} (h : x c = .ok a c') : c.errors <+: c'.errors := by
  have := hx c; rwa [h] at this
theorem Keeps.err {x : D E S α} (hx : Keeps x) {c c' : Ctx E S} {e : DErr S} (h : x c = .err e c') : c.errors <+: c'.errors := by
  have := hx c; rwa [h] at this

theorem Keeps.forEach {f : α → D E S Unit} (hf : ∀ a, Keeps (f a)) (l : List α) : Keeps (D.forEach f l) := by
  induction l with
  | nil => exact Keeps.pure ()
  | cons x xs ih => exact (hf x).bind fun _ => ih

theorem Keeps.collect {f : α → D E S β} {l : List α} (hf : ∀ a, Keeps (f a)) : Keeps (D.collect f l) := by
  induction l with
  | nil => exact Keeps.pure []
  | cons x xs ih => exact (hf x).bind fun _ => ih.bind fun _ => Keeps.pure _

theorem forEach_emit (f : α → DErr S) (l : List α) (c : Ctx E S) :
    D.forEach (fun a => D.emit (f a)) l c = .ok () (c.emitAll (l.map f)) := by
  induction l generalizing c with
  | nil => simp [D.forEach, D.pure_eq]
  | cons x xs ih =>
    rw [D.forEach, D.bind_ok (D.emit_eq _ _), ih, Ctx.emitError_eq, Ctx.emitAll_emitAll]
    rfl

/-- What `check_flag_node` records. -/
def flagErrors (node : SpannedNode S) : List (DErr S) :=
  node.value.arguments.map unexpectedArgument ++ node.value.properties.map (fun p => unexpectedProperty p.1) ++
  node.value.childNodes.map unexpectedNode

theorem checkFlagNode_eq (node : SpannedNode S) (c : Ctx E S) :
    checkFlagNode node c = .ok () (c.emitAll (flagErrors node)) := by
  rw [checkFlagNode, D.bind_ok (forEach_emit _ _ _), D.bind_ok (forEach_emit (fun p : Spanned Str S × Value S => unexpectedProperty p.1) _ _)]
  unfold flagErrors Node.childNodes
  cases h : node.value.children with
  | none => simp [D.pure_eq, Ctx.emitAll_emitAll]
  | some ch =>
    dsimp only
    rw [forEach_emit]
    simp [Ctx.emitAll_emitAll]

theorem reports_of_ok {x : D E S α} {c : Ctx E S} {a : α} {e : DErr S} (h : x c = .ok a (c.emitError e)) : Reports x c [e] :=
  ⟨by rw [h]; simp, by rw [h]; rfl⟩

end Knuffel
