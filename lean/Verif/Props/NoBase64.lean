import Verif.Model.NoBase64
import Verif.Model.Display
import Verif.Props.Modes
/-!
# C89: bytes in a build without the feature `base64`
-/

namespace Knuffel
variable {E S : Type}

/-- An error that is recorded is seen in the context. -/
theorem plain_emit {e : DErr S} {x b : List UInt8} {c : Ctx E S} : ¬ Gives (D.emit e >>= fun _ => pure x : D E S _) c b := by
  intro h
  have h' : (Out.ok x (c.emitError e) : Out E S _) = .ok b c := h
  injection h' with _ h2
  have := congrArg (fun k => k.errors.length) h2
  simp [Ctx.emitError] at this

/-- **C89.**  Bytes are given, and no error is recorded, exactly for a string without annotation, and they are those
of the string. -/
theorem c89_gives (val : Value S) (b : List UInt8) (c : Ctx E S) :
    Gives (decodeBytesPlain val) c b ↔ val.typeName = none ∧ ∃ s, val.literal.value = .string s ∧ b = utf8 s := by
  unfold decodeBytesPlain
  cases ht : val.typeName with
  | some typ =>
    simp only [reduceCtorEq, false_and, iff_false]
    cases typ.value.asBuiltin with
    | none => exact plain_emit
    | some t => cases t <;> exact plain_emit
  | none =>
    simp only [true_and]
    cases hl : val.literal.value with
    | string s =>
      constructor
      · intro h
        have h' : (Out.ok (utf8 s) c : Out E S _) = .ok b c := h
        injection h' with h1
        exact ⟨s, rfl, h1.symm⟩
      · rintro ⟨_, h, rfl⟩; cases h; rfl
    | _ =>
      constructor
      · intro h; exact absurd h plain_emit
      · rintro ⟨_, h, _⟩; cases h

/-- A string, and the same annotated. -/
example : Gives (decodeBytesPlain (E := Unit) ⟨none, ⟨(1 : Nat), .string ['a']⟩⟩) ⟨[], ()⟩ [97] ∧
    ¬ Gives (decodeBytesPlain (E := Unit) ⟨some ⟨0, .builtin .base64⟩, ⟨(1 : Nat), .string ['a']⟩⟩) ⟨[], ()⟩ [] :=
  ⟨(c89_gives _ _ _).2 ⟨rfl, ['a'], rfl, by decide⟩, fun h => by simpa using ((c89_gives _ _ _).1 h).1⟩

/-- **C89.**  A value annotated `(base64)`, whatever it is, is refused: one error is recorded after those that are there,
which points at the value and says that there is no support for base64; the bytes given are none. -/
theorem c89_refused (val : Value S) (sp : S) (h : val.typeName = some ⟨sp, .builtin .base64⟩) (c : Ctx E S) :
    ∃ e, decodeBytesPlain val c = .ok [] ⟨c.errors ++ [e], c.extensions⟩ ∧
      e.message = "base64 support is not compiled in".toList ∧
      e.labels = [("unsupported value".toList, val.literal.span)] :=
  ⟨DErr.unsup val.literal "base64 support is not compiled in".toList, by unfold decodeBytesPlain; rw [h]; rfl, rfl, rfl⟩

/-- A number annotated `(base64)`, after another error. -/
example : ∃ e, decodeBytesPlain (E := Unit) ⟨some ⟨3, .builtin .base64⟩, ⟨(5 : Nat), .int .dec ['7']⟩⟩ ⟨[.custom []], ()⟩ =
    .ok [] ⟨[.custom [], e], ()⟩ ∧ e.labels.map (·.2) = [5] := by
  obtain ⟨e, h1, _, h3⟩ := c89_refused (E := Unit) ⟨some ⟨3, .builtin .base64⟩, ⟨(5 : Nat), .int .dec ['7']⟩⟩ 3 rfl ⟨[.custom []], ()⟩
  exact ⟨e, h1, by rw [h3]; rfl⟩

/-- **C89.**  For every other value, accepted or not, the feature makes no difference: not to the bytes, nor to the errors. -/
theorem c89_same (ext : Externals) (val : Value S) (h : ∀ sp, val.typeName ≠ some ⟨sp, .builtin .base64⟩) (c : Ctx E S) :
    decodeBytesPlain val c = decodeBytes val c := by
  unfold decodeBytesPlain decodeBytes
  cases ht : val.typeName with
  | none => rfl
  | some typ =>
    obtain ⟨sp, tn⟩ := typ
    cases tn with
    | custom s => rfl
    | builtin t =>
      cases t with
      | base64 => exact absurd ht (h sp)
      | _ => rfl

/-- A string annotated with another type: the error is the same. -/
example (ext : Externals) : decodeBytesPlain (E := Unit) ⟨some ⟨0, .builtin .u8⟩, ⟨(1 : Nat), .string ['a']⟩⟩ ⟨[], ()⟩ =
    decodeBytes ⟨some ⟨0, .builtin .u8⟩, ⟨1, .string ['a']⟩⟩ ⟨[], ()⟩ := c89_same ext _ (by simp) _

/-- **C89.**  What is accepted without the feature is accepted with it, with the same bytes. -/
theorem c89_accepted (ext : Externals) (val : Value S) (b : List UInt8) (c : Ctx E S) (h : Gives (decodeBytesPlain val) c b) :
    Gives (decodeBytes val) c b := by
  have hn := ((c89_gives val b c).1 h).1
  unfold Gives at h ⊢
  rw [← c89_same ext val (by rw [hn]; simp) c]
  exact h

/-- The string above, with the feature. -/
example (ext : Externals) : Gives (decodeBytes (E := Unit) ⟨none, ⟨(1 : Nat), .string ['a']⟩⟩) ⟨[], ()⟩ [97] :=
  c89_accepted ext _ _ _ ((c89_gives _ _ _).2 ⟨rfl, ['a'], rfl, by decide⟩)

end Knuffel
