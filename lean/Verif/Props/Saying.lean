import Verif.Spec.Saying
import Verif.Spec.Number
import Verif.Props.Display
import Verif.Props.Scalars
import Verif.Model.Derive
/-!
# C76: messages about numbers and annotations name the type and the side
-/

namespace Knuffel
variable {E S α : Type}

/-! ### Annotations -/

theorem says_emit {e : DErr S} {a : α} {m l : Str} {p : S} (hm : e.message = m) (hl : e.labels = [(l, p)]) :
    SaysOnly (E := E) (do D.emit e; pure a) m l p :=
  fun _ => ⟨e, reports_of_ok (a := a) rfl, hm, hl⟩

theorem notBuiltin {a : Str} {m : BuiltinType} (ha : a ≠ m.asStr) : (TypeName.fromString a).asBuiltin ≠ some m := by
  unfold TypeName.fromString
  cases h : BuiltinType.fromStr a with
  | none => simp [TypeName.asBuiltin]
  | some b =>
    simp only [TypeName.asBuiltin, ne_eq, Option.some.injEq]
    rintro rfl
    exact ha (fromStr_some h)

theorem optional_message (b : BuiltinType) (a rust : Str) (span : S) :
    (DErr.typeName span (some (TypeName.fromString a)) (ExpectedType.optional (.builtin b)) rust).message =
      b.asStr ++ " or no type for ".toList ++ rust ++ ", found ".toList ++ a := by
  have l : (" or no type for ".toList : Str) = " or no type".toList ++ " for ".toList := by decide
  show ((b.asStr ++ []) ++ " or no type".toList) ++ " for ".toList ++ rust ++ ", found ".toList ++ (TypeName.fromString a).asStr = _
  rw [l, c27_text, List.append_nil]
  simp only [List.append_assoc]

/-- **C76**, annotations of integers: the message names the type of the field, once as the annotation that is
allowed and once as the type, and the annotation that was found; the label is at the annotation. -/
theorem c76_int_type (ptr : Nat) (t : IntTy) (name : Str) (hn : (t, name) ∈ intNames) (a : Str) (ha : a ≠ name) (span : S) :
    SaysOnly ((intScalar (E := E) ptr t).typeCheck (some ⟨span, TypeName.fromString a⟩))
      (name ++ " or no type for ".toList ++ name ++ ", found ".toList ++ a) "unexpected type name".toList span := by
  have e : ∀ p ∈ intNames, p.2 = p.1.marker.asStr ∧ p.2 = p.1.name := by decide
  obtain ⟨e1, e2⟩ := e _ hn
  simp only at e1 e2
  intro c
  refine ⟨.typeName span (some (TypeName.fromString a)) (ExpectedType.optional (.builtin t.marker)) t.name, ?_, ?_, by simp only [DErr.labels]⟩
  · refine reports_of_ok (a := ()) ?_
    simp only [intScalar, Scalar.provided, numTypeCheck]
    rw [if_pos (notBuiltin (by rwa [← e1]))]
    rfl
  · rw [optional_message, ← e1, ← e2]

example : (IntTy.u8, "u8".toList) ∈ intNames ∧ "i8".toList ≠ "u8".toList := by decide

/-- **C76**: for the types `usize` and `isize` the annotation that the message calls allowed is itself refused (see C28):
the message then says that `usize` was expected and `usize` was found. -/
theorem c76_word_sized (ptr : Nat) (t : IntTy) (h : t = .usize ∨ t = .isize) (name : Str) (hn : (t, name) ∈ intNames) (span : S) :
    SaysOnly ((intScalar (E := E) ptr t).typeCheck (some ⟨span, TypeName.fromString name⟩))
      (name ++ " or no type for ".toList ++ name ++ ", found ".toList ++ name) "unexpected type name".toList span := by
  have e : ∀ p ∈ intNames, p.2 = p.1.marker.asStr ∧ p.2 = p.1.name := by decide
  obtain ⟨e1, e2⟩ := e _ hn
  simp only at e1 e2
  intro c
  refine ⟨.typeName span (some (TypeName.fromString name)) (ExpectedType.optional (.builtin t.marker)) t.name, ?_, ?_, by simp only [DErr.labels]⟩
  · refine reports_of_ok (a := ()) ?_
    have h1 : (TypeName.fromString name).asBuiltin ≠ some t.marker := by
      rcases h with rfl | rfl <;> rw [e2] <;> decide
    simp only [intScalar, Scalar.provided, numTypeCheck]
    rw [if_pos h1]
    rfl
  · rw [optional_message, ← e1, ← e2]

example : (IntTy.usize, "usize".toList) ∈ intNames := by decide

/-- **C76**, annotations of floats. -/
theorem c76_float_type {F : Type} (t : FloatTy) (round : Str → F) (zero : F) (name : Str) (hn : (t, name) ∈ floatNames)
    (a : Str) (ha : a ≠ name) (span : S) :
    SaysOnly ((floatScalar (E := E) t round zero).typeCheck (some ⟨span, TypeName.fromString a⟩))
      (name ++ " or no type for ".toList ++ name ++ ", found ".toList ++ a) "unexpected type name".toList span := by
  have e : ∀ p ∈ floatNames, p.2 = p.1.marker.asStr ∧ p.2 = p.1.name := by decide
  obtain ⟨e1, e2⟩ := e _ hn
  simp only at e1 e2
  intro c
  refine ⟨.typeName span (some (TypeName.fromString a)) (ExpectedType.optional (.builtin t.marker)) t.name, ?_, ?_, by simp only [DErr.labels]⟩
  · refine reports_of_ok (a := ()) ?_
    simp only [floatScalar, Scalar.provided, numTypeCheck]
    rw [if_pos (notBuiltin (by rwa [← e1]))]
    rfl
  · rw [optional_message, ← e1, ← e2]

example : (FloatTy.f32, "f32".toList) ∈ floatNames ∧ "f64".toList ≠ "f32".toList := by decide

/-- The types that hold a text, and their names. -/
def textNames : List (Scalar E S Str × Str) :=
  [(stringScalar, "String".toList), (pathBufScalar, "PathBuf".toList), (arcPathScalar, "Arc<Path>".toList),
   (arcStrScalar, "Arc<str>".toList)]

theorem noType_message (a rust : Str) (span : S) :
    (DErr.typeName span (some (TypeName.fromString a)) ExpectedType.none rust).message =
      "no type for ".toList ++ rust ++ ", found ".toList ++ a := by
  have l : ("no type for ".toList : Str) = "no type".toList ++ " for ".toList := by decide
  show "no type".toList ++ " for ".toList ++ rust ++ ", found ".toList ++ (TypeName.fromString a).asStr = _
  rw [l, c27_text]

/-- **C76**, annotations of texts and booleans, which are all refused. -/
theorem c76_text_type (d : Scalar E S Str) (name : Str) (hd : (d, name) ∈ textNames) (a : Str) (span : S) :
    SaysOnly (d.typeCheck (some ⟨span, TypeName.fromString a⟩))
      ("no type for ".toList ++ name ++ ", found ".toList ++ a) "unexpected type name".toList span ∧
    SaysOnly ((boolScalar (E := E)).typeCheck (some ⟨span, TypeName.fromString a⟩))
      ("no type for bool, found ".toList ++ a) "unexpected type name".toList span := by
  constructor
  · have h : d.typeCheck = noTypeCheck name := by
      simp only [textNames, List.mem_cons, List.not_mem_nil, or_false, Prod.mk.injEq] at hd
      rcases hd with ⟨rfl, rfl⟩ | ⟨rfl, rfl⟩ | ⟨rfl, rfl⟩ | ⟨rfl, rfl⟩ <;> rfl
    rw [h]
    exact fun c => ⟨_, reports_of_ok (a := ()) rfl, noType_message a name span, by simp only [DErr.labels]⟩
  · refine fun c => ⟨_, reports_of_ok (a := ()) rfl, (noType_message a _ span).trans ?_, by simp only [DErr.labels]⟩
    have l : ("no type for bool, found ".toList : Str) = "no type for ".toList ++ "bool".toList ++ ", found ".toList := by decide
    rw [l]

example : (pathBufScalar, "PathBuf".toList) ∈ textNames (E := E) (S := S) := by simp [textNames]

/-- **C76**, annotations of derived scalar enums: the message names the enum. -/
theorem c76_enum_type {V : Type} (rustType : Str) (variants : List ScalarVariant) (a : Str) (span : S) :
    SaysOnly ((enumScalar (E := E) (V := V) rustType variants).typeCheck (some ⟨span, TypeName.fromString a⟩))
      ("no type for ".toList ++ rustType ++ ", found ".toList ++ a) "unexpected type name".toList span :=
  fun _ => ⟨_, reports_of_ok (a := ()) rfl, noType_message a _ span, by simp only [DErr.labels]⟩

/-- **C76**, annotations of bytes. -/
theorem c76_bytes_type [Externals] (a : Str) (ha : a ≠ "base64".toList) (span : S) (lit : Spanned Literal S) :
    SaysOnly (decodeBytes (E := E) ⟨some ⟨span, TypeName.fromString a⟩, lit⟩)
      ("base64 or no type for bytes, found ".toList ++ a) "unexpected type name".toList span := by
  have h := notBuiltin (m := .base64) ha
  have h2 : decodeBytes (E := E) ⟨some ⟨span, TypeName.fromString a⟩, lit⟩ =
      (do D.emit (.typeName span (some (TypeName.fromString a)) (ExpectedType.optional (.builtin .base64)) "bytes".toList); pure []) := by
    unfold decodeBytes
    dsimp only
    split
    · next h' => exact absurd h' h
    · rfl
  rw [h2]
  refine says_emit ?_ (by simp only [DErr.labels])
  have l : ("base64 or no type for bytes, found ".toList : Str) =
    "base64".toList ++ " or no type for ".toList ++ "bytes".toList ++ ", found ".toList := by decide
  rw [l]
  exact optional_message .base64 a _ span

example : "u8".toList ≠ "base64".toList := by decide

/-! ### Numbers -/

/-- When all characters are digits, the only error is an overflow. -/
theorem loop_error {lo hi : Int} {b : Nat} (hb : b ≤ 16) (neg : Bool) : ∀ {s : Str} {n m : Nat}, Cont b n s m → ∀ {acc k},
    radixLoop lo hi b neg s acc = .error k → k = if neg then .negOverflow else .posOverflow := by
  intro s n m hc
  induction hc with
  | nil => intro acc k h; simp [radixLoop] at h
  | cons hd _ ih =>
    intro acc k h
    rw [radixLoop, (toDigit_iff hb _ _).2 hd] at h
    dsimp only at h
    split at h
    · injection h with h; exact h.symm
    · split at h
      · injection h with h; exact h.symm
      · exact ih h

theorem tryFrom_error {ptr : Nat} {t : IntTy} {r : Radix} {s : Str} {minus : Bool} {v : Int} (h : IntText (baseOf r) s minus v)
    {k} (hk : t.tryFrom ptr r s = .error k) :
    k = if minus then (if t.signed then .negOverflow else .invalidDigit) else .posOverflow := by
  have hb : r.base ≤ 16 := by cases r <;> decide
  have he : baseOf r = r.base := by cases r <;> rfl
  rw [he] at h
  unfold IntTy.tryFrom at hk
  cases h with
  | plain h =>
    have hne := h.cont.1
    have h1 : ∀ x, s ≠ '+' :: x := fun x e => denotes_no_sign hb (Or.inl rfl) (e ▸ h)
    have h2 : ∀ x, s ≠ '-' :: x := fun x e => denotes_no_sign hb (Or.inr rfl) (e ▸ h)
    unfold fromStrRadix at hk
    split at hk
    · exact absurd rfl hne
    · exact absurd rfl (h1 _)
    · exact absurd rfl (h2 _)
    · exact absurd rfl (h1 _)
    · exact absurd rfl (h2 _)
    · exact loop_error hb false h.cont.2 hk
  | @plus s _ h =>
    have hne := h.cont.1
    cases s with
    | nil => exact absurd rfl hne
    | cons c s => exact loop_error hb false h.cont.2 hk
  | @minus s _ h =>
    have hne := h.cont.1
    cases s with
    | nil => exact absurd rfl hne
    | cons c s =>
      simp only [fromStrRadix] at hk
      cases hs : t.signed with
      | true =>
        rw [hs, if_pos rfl] at hk
        simpa using loop_error hb true h.cont.2 hk
      | false =>
        rw [hs] at hk
        simp only [Bool.false_eq_true, if_false] at hk
        have hd : toDigit r.base '-' = none := by
          cases hd : toDigit r.base '-' with
          | none => rfl
          | some d => exact absurd ((toDigit_iff hb _ _).1 hd) (not_digit hb (Or.inr rfl) d)
        rw [radixLoop, hd] at hk
        injection hk with hk
        simp [← hk]

theorem int_says {ptr : Nat} {t : IntTy} {r : Radix} {s : Str} {minus : Bool} {v : Int} (h : IntText (baseOf r) s minus v)
    (hv : ¬ ∃ v, FitsAs ptr t r s v) (span : S) {k : IntErrorKind}
    (hk : k = if minus then (if t.signed then .negOverflow else .invalidDigit) else .posOverflow) :
    SaysOnly ((intScalar (E := E) ptr t).rawDecode ⟨span, .int r s⟩) k.show "invalid value".toList span := by
  have h1 : t.tryFrom ptr r s = .error k := by
    cases hx : t.tryFrom ptr r s with
    | ok v => exact absurd ⟨v, (tryFrom_ok _ _ _ _ _).1 hx⟩ hv
    | error k' => rw [tryFrom_error h hx, hk]
  have h2 : (intScalar (E := E) ptr t).rawDecode ⟨span, .int r s⟩ =
      (do D.emit (DErr.conv (⟨span, .int r s⟩ : Spanned Literal S) (.parseInt k)); pure 0) := by
    simp only [intScalar, Scalar.provided, h1]
  rw [h2]
  exact says_emit rfl (by simp only [DErr.labels, DErr.conv])

theorem signed_iff (t : IntTy) : t.signed = false ↔ t ∈ unsignedTypes := by cases t <;> decide

theorem intText_nonneg {b : Nat} {s : Str} {minus : Bool} {v : Int} (h : IntText b s minus v) :
    (minus = false → 0 ≤ v) ∧ (minus = true → v ≤ 0) := by
  cases h <;> simp

/-- **C76**, numbers above the range of the type: one error, at the number, that says so. -/
theorem c76_too_large (ptr : Nat) (t : IntTy) (r : Radix) (s : Str) (minus : Bool) (v : Int)
    (h : IntText (baseOf r) s minus v) (hv : (rangeOf ptr t).2 < v) (span : S) :
    SaysOnly ((intScalar (E := E) ptr t).rawDecode ⟨span, .int r s⟩) "number too large to fit in target type".toList
      "invalid value".toList span := by
  have hb : baseOf r ≤ 16 := by cases r <;> decide
  refine int_says h ?_ span (k := .posOverflow) ?_
  · rintro ⟨v', m', h', -, h2, -⟩
    obtain ⟨-, rfl⟩ := intText_unique hb h h'
    omega
  · have h0 : 0 ≤ (rangeOf ptr t).2 := by
      rw [range_eq]; exact (range_zero ptr t).2
    cases minus with
    | false => rfl
    | true => have := (intText_nonneg h).2 rfl; omega

example : IntText (baseOf .dec) ['+', '2', '5', '6'] false (256 : Nat) ∧ (rangeOf 64 .u8).2 < (256 : Nat) := by
  have h2 : DigitIs 10 '2' 2 := ⟨by decide, .inl (by decide)⟩
  have h5 : DigitIs 10 '5' 5 := ⟨by decide, .inl (by decide)⟩
  have h6 : DigitIs 10 '6' 6 := ⟨by decide, .inl (by decide)⟩
  exact ⟨.plus (((Denotes.one h2).snoc h5).snoc h6), by decide⟩

/-- **C76**, numbers below the range of a type that has negative numbers. -/
theorem c76_too_small (ptr : Nat) (t : IntTy) (ht : t ∉ unsignedTypes) (r : Radix) (s : Str) (minus : Bool) (v : Int)
    (h : IntText (baseOf r) s minus v) (hv : v < (rangeOf ptr t).1) (span : S) :
    SaysOnly ((intScalar (E := E) ptr t).rawDecode ⟨span, .int r s⟩) "number too small to fit in target type".toList
      "invalid value".toList span := by
  have hb : baseOf r ≤ 16 := by cases r <;> decide
  refine int_says h ?_ span (k := .negOverflow) ?_
  · rintro ⟨v', m', h', h2, -, -⟩
    obtain ⟨-, rfl⟩ := intText_unique hb h h'
    omega
  · have h0 : (rangeOf ptr t).1 ≤ 0 := by
      rw [range_eq]; exact (range_zero ptr t).1
    cases minus with
    | true =>
      cases hs : t.signed with
      | true => rfl
      | false => exact absurd ((signed_iff t).1 hs) ht
    | false => have := (intText_nonneg h).1 rfl; omega

example : IntTy.i8 ∉ unsignedTypes ∧ IntText (baseOf .hex) ['-', '8', '1'] true (-(129 : Nat)) ∧
    -((129 : Nat) : Int) < (rangeOf 64 .i8).1 := by
  have h8 : DigitIs 16 '8' 8 := ⟨by decide, .inl (by decide)⟩
  have h1 : DigitIs 16 '1' 1 := ⟨by decide, .inl (by decide)⟩
  exact ⟨by decide, .minus ((Denotes.one h8).snoc h1), by decide⟩

/-- **C76**, a minus sign for a type without negative numbers is an invalid digit, whatever the number (even zero). -/
theorem c76_minus (ptr : Nat) (t : IntTy) (ht : t ∈ unsignedTypes) (r : Radix) (s : Str) (v : Int)
    (h : IntText (baseOf r) s true v) (span : S) :
    SaysOnly ((intScalar (E := E) ptr t).rawDecode ⟨span, .int r s⟩) "invalid digit found in string".toList
      "invalid value".toList span := by
  have hb : baseOf r ≤ 16 := by cases r <;> decide
  refine int_says h ?_ span (k := .invalidDigit) ?_
  · rintro ⟨v', m', h', -, -, h3⟩
    obtain ⟨rfl, -⟩ := intText_unique hb h h'
    exact absurd (h3 ht) (by decide)
  · rw [(signed_iff t).2 ht]; rfl

example : IntTy.u8 ∈ unsignedTypes ∧ IntText (baseOf .dec) ['-', '0'] true (-(0 : Nat)) := by
  have h0 : DigitIs 10 '0' 0 := ⟨by decide, .inl (by decide)⟩
  exact ⟨by decide, .minus (Denotes.one h0)⟩

/-- **C76**, floats: a text that is not a float is called that. -/
theorem c76_float {F : Type} (t : FloatTy) (round : Str → F) (zero : F) (s : Str) (hs : ¬ FloatText s) (hne : s ≠ []) (span : S) :
    SaysOnly ((floatScalar (E := E) t round zero).rawDecode ⟨span, .decimal s⟩) "invalid float literal".toList
      "invalid value".toList span := by
  have h1 : ¬ floatSyntax s = true := fun h => hs ((floatSyntax_iff s).1 h)
  have h2 : (floatScalar (E := E) t round zero).rawDecode ⟨span, .decimal s⟩ =
      (do D.emit (DErr.conv (⟨span, .decimal s⟩ : Spanned Literal S) (.parseFloat false)); pure zero) := by
    cases s with
    | nil => exact absurd rfl hne
    | cons c s => simp only [floatScalar, Scalar.provided, h1, if_false, Bool.false_eq_true]; rfl
  rw [h2]
  exact says_emit rfl (by simp only [DErr.labels, DErr.conv])

example : ¬ FloatText "1e".toList ∧ "1e".toList ≠ [] := ⟨by rw [← floatSyntax_iff]; decide, by decide⟩

end Knuffel
