import Verif.Theory.Base64
import Verif.Theory.DeriveArgs
import Verif.Theory.DeriveDemo
import Verif.Props.DeriveErrors
/-!
# C53: the decode modes `str` and `bytes`
-/

set_option linter.unusedSectionVars false

namespace Knuffel
variable {E S V : Type}

/-- The value of a field: `Some(w)` if the type of the field is an `Option`. -/
def fieldValue (optional : Bool) (w : FVal V) : FVal V := if optional then .some w else w

/-- What a `str` field accepts, and what it gets: a string without annotation, as the type's
`FromStr` reads it; and `null` if the field is optional. -/
def StrField (fromStr : Str → Except Str (FVal V)) (optional : Bool) (val : Value S) (v : FVal V) : Prop :=
  val.typeName = none ∧
    ((∃ s w, val.literal.value = .string s ∧ fromStr s = .ok w ∧ v = fieldValue optional w) ∨
     (optional = true ∧ val.literal.value = .null ∧ v = .none))

/-- The bytes of a value: those of a string without annotation, in UTF-8; those that a string
annotated `(base64)` is the Base 64 text of. -/
def BytesOf (val : Value S) (bytes : List UInt8) : Prop :=
  (val.typeName = none ∧ ∃ s, val.literal.value = .string s ∧ bytes = utf8 s) ∨
  ((∃ span, val.typeName = some ⟨span, .builtin .base64⟩) ∧ val.literal.value = .string (b64Text bytes))

/-- What a `bytes` field accepts, and what it gets: the bytes, as the type's `TryFrom<Vec<u8>>`
takes them; and `null`, whatever its annotation, if the field is optional. -/
def BytesField (fromBytes : List UInt8 → Except Str (FVal V)) (optional : Bool) (val : Value S) (v : FVal V) : Prop :=
  (val.literal.value ≠ .null ∧ ∃ bytes w, BytesOf val bytes ∧ fromBytes bytes = .ok w ∧ v = fieldValue optional w) ∨
  (optional = true ∧ val.literal.value = .null ∧ v = .none)

theorem emit_ne {c : Ctx E S} {e : DErr S} : (c.emitError e).errors ≠ c.errors := by
  simp [Ctx.emitError]

theorem liftConv_clean {α : Type} {x : Spanned α S} {r : Except Str (FVal V)} {c c' : Ctx E S} {v} :
    liftConv x r c = .ok v c' ↔ r = .ok v ∧ c = c' := by
  cases r with
  | error m => simp [liftConv]
  | ok w => simp [liftConv, D.pure_ok_iff]

section
variable [Externals]

theorem strTypeCheck_ok {tn : Option (Spanned TypeName S)} {c c' : Ctx E S} {u : Unit} (h : strTypeCheck tn c = .ok u c') :
    c.errors <+: c'.errors ∧ (c'.errors = c.errors → tn = none ∧ c = c') := by
  cases tn with
  | none =>
    simp only [strTypeCheck, D.pure_ok_iff] at h
    rw [h.2]; exact ⟨List.prefix_rfl, fun _ => ⟨rfl, rfl⟩⟩
  | some t =>
    simp only [strTypeCheck, D.emit_ok_iff] at h
    subst h
    exact ⟨⟨_, rfl⟩, fun h => (emit_ne h).elim⟩

/-- A value is given without an error exactly if it is accepted. -/
theorem str_clean {o : Bool} {i : Impls E S V} {val : Value S} {c c' : Ctx E S} {v : FVal V} :
    (decodeValue .str o i val c = .ok v c' ∧ c'.errors = c.errors) ↔ StrField i.fromStr o val v ∧ c' = c := by
  constructor
  · rintro ⟨h, he⟩
    have : ∃ c1, (strTypeCheck (E := E) val.typeName) c = .ok () c1 ∧ c1.errors <+: c'.errors ∧ (c1 = c → 
      ((∃ s w, val.literal.value = .string s ∧ i.fromStr s = .ok w ∧ v = fieldValue o w) ∨
        (o = true ∧ val.literal.value = .null ∧ v = .none)) ∧ c' = c) := by
      cases o with
      | false =>
        rw [decodeValue, D.bind_ok_iff] at h
        obtain ⟨_, c1, h1, h2⟩ := h
        refine ⟨c1, h1, ?_⟩
        cases hv : val.literal.value <;> simp only [hv] at h2
        case string s =>
          obtain ⟨hs, rfl⟩ := liftConv_clean.1 h2
          exact ⟨List.prefix_rfl, fun e => ⟨Or.inl ⟨_, _, rfl, hs, by simp [fieldValue]⟩, e⟩⟩
        all_goals exact (D.fail_ok_iff.1 h2).elim
      | true =>
        rw [decodeValue, D.bind_ok_iff] at h
        obtain ⟨_, c1, h1, h2⟩ := h
        refine ⟨c1, h1, ?_⟩
        cases hv : val.literal.value <;> simp only [hv] at h2
        case string s =>
          rw [D.bind_ok_iff] at h2
          obtain ⟨w, c2, h2, h3⟩ := h2
          obtain ⟨hs, rfl⟩ := liftConv_clean.1 h2
          rw [D.pure_ok_iff] at h3
          obtain ⟨rfl, rfl⟩ := h3
          exact ⟨List.prefix_rfl, fun e => ⟨Or.inl ⟨_, _, rfl, hs, by simp [fieldValue]⟩, e⟩⟩
        case null =>
          rw [D.pure_ok_iff] at h2
          obtain ⟨rfl, rfl⟩ := h2
          exact ⟨List.prefix_rfl, fun e => ⟨Or.inr ⟨rfl, rfl, rfl⟩, e⟩⟩
        all_goals
          rw [D.bind_ok_iff] at h2
          obtain ⟨_, c2, h2, h3⟩ := h2
          rw [D.emit_ok_iff] at h2
          rw [D.pure_ok_iff] at h3
          obtain ⟨rfl, rfl⟩ := h3
          subst h2
          refine ⟨⟨_, rfl⟩, fun e => ?_⟩
          subst e
          exact (emit_ne he).elim
    obtain ⟨c1, h1, h2, h3⟩ := this
    obtain ⟨h4, h5⟩ := strTypeCheck_ok h1
    have h6 : c1.errors = c.errors := by
      rw [he] at h2
      exact h2.eq_of_length (Nat.le_antisymm h2.length_le h4.length_le)
    obtain ⟨h7, rfl⟩ := h5 h6
    exact ⟨⟨h7, (h3 rfl).1⟩, (h3 rfl).2⟩
  · rintro ⟨⟨h1, h2⟩, rfl⟩
    refine ⟨?_, rfl⟩
    rcases h2 with ⟨s, w, h2, h3, rfl⟩ | ⟨rfl, h2, rfl⟩
    · cases o <;> simp only [decodeValue, h1, h2, strTypeCheck, liftConv, h3, fieldValue] <;> rfl
    · simp only [decodeValue, h1, h2, strTypeCheck]; rfl

/-- **C53, `str`.**  A field with mode `str` gets a value, and no error is recorded, exactly if the
value is a string without annotation that `FromStr` accepts (or `null`, if the field is
optional); and then it gets what `FromStr` gives. -/
theorem c53_str (o : Bool) (i : Impls E S V) (val : Value S) (v : FVal V) (c : Ctx E S) :
    Gives (decodeValue .str o i val) c v ↔ StrField i.fromStr o val v := by
  constructor
  · intro h; exact (str_clean.1 ⟨h, rfl⟩).1
  · intro h; exact (str_clean.2 ⟨h, rfl⟩).1

/-- **C53, `str`.**  Whatever else is given is an error. -/
theorem c53_str_refused (o : Bool) (i : Impls E S V) (val : Value S) (h : ∀ v, ¬ StrField i.fromStr o val v) :
    NeverClean (decodeValue .str o i val) := by
  rintro c ⟨v, c', h1, h2⟩
  exact h v (str_clean.1 ⟨h1, h2⟩).1

end

/-! ### Bytes -/

/-- The bytes are given without an error exactly if they are those of the value. -/
theorem bytes_clean (ext : Externals) (hb : StandardB64 ext) {val : Value S} {c c' : Ctx E S} {b : List UInt8} :
    (decodeBytes val c = .ok b c' ∧ c'.errors = c.errors) ↔ BytesOf val b ∧ c' = c := by
  have emit : ∀ (e : DErr S) (x : List UInt8), (D.emit e >>= fun _ => pure x : D E S _) c = .ok b c' → c'.errors ≠ c.errors := by
    intro e x h
    rw [D.bind_ok_iff] at h
    obtain ⟨_, c2, h2, h3⟩ := h
    rw [D.emit_ok_iff] at h2
    rw [D.pure_ok_iff] at h3
    obtain ⟨_, rfl⟩ := h3
    subst h2
    exact emit_ne
  constructor
  · rintro ⟨h, he⟩
    unfold decodeBytes at h
    cases ht : val.typeName with
    | some typ =>
      simp only [ht] at h
      by_cases hty : typ.value = .builtin .base64
      · simp only [hty, TypeName.asBuiltin] at h
        cases hv : val.literal.value <;> simp only [hv] at h
        case string s =>
          cases hbs : ext.b64 (utf8 s) with
          | ok bytes =>
            simp only [hbs, D.pure_ok_iff] at h
            obtain ⟨rfl, rfl⟩ := h
            have := utf8_inj ((hb _ _).1 hbs)
            exact ⟨Or.inr ⟨⟨typ.span, by rw [ht, ← hty]⟩, by rw [hv, this]⟩, rfl⟩
          | error m =>
            simp only [hbs] at h
            exact (emit _ _ h he).elim
        all_goals exact (emit _ _ h he).elim
      · have : typ.value.asBuiltin ≠ some .base64 := by
          intro h
          cases ho : typ.value <;> simp [ho, TypeName.asBuiltin] at h hty
          exact hty h
        exfalso
        cases ho : typ.value.asBuiltin with
        | none => simp only [ho] at h; exact emit _ _ h he
        | some b => cases b <;> first | exact this ho | (simp only [ho] at h; exact emit _ _ h he)
    | none =>
      simp only [ht] at h
      cases hv : val.literal.value <;> simp only [hv] at h
      case string s =>
        rw [D.pure_ok_iff] at h
        obtain ⟨rfl, rfl⟩ := h
        exact ⟨Or.inl ⟨ht, s, hv, rfl⟩, rfl⟩
      all_goals exact (emit _ _ h he).elim
  · rintro ⟨h, rfl⟩
    refine ⟨?_, rfl⟩
    rcases h with ⟨h1, s, h2, rfl⟩ | ⟨⟨sp, h1⟩, h2⟩
    · simp only [decodeBytes, h1, h2]; rfl
    · simp only [decodeBytes, h1, h2, TypeName.asBuiltin, (hb _ _).2 rfl]; rfl

theorem bytes_keeps (ext : Externals) {val : Value S} {c c' : Ctx E S} {b : List UInt8} (h : decodeBytes val c = .ok b c') :
    c.errors <+: c'.errors := Keeps.ok (Keeps.decodeBytes val) h

/-- A value is given without an error exactly if it is accepted. -/
theorem bytesField_clean (ext : Externals) (hb : StandardB64 ext) {o : Bool} {i : Impls E S V} {val : Value S} {c c' : Ctx E S}
    {v : FVal V} :
    (decodeValue .bytes o i val c = .ok v c' ∧ c'.errors = c.errors) ↔ BytesField i.fromBytes o val v ∧ c' = c := by
  have nn : ∀ b, BytesOf val b → val.literal.value ≠ .null := by
    rintro b (⟨_, s, h, _⟩ | ⟨_, h⟩) <;> rw [h] <;> simp
  cases o with
  | false =>
    simp only [decodeValue, D.bind_ok_iff, liftConv_clean]
    constructor
    · rintro ⟨⟨b, c1, h1, h2, rfl⟩, he⟩
      obtain ⟨h3, rfl⟩ := (bytes_clean ext hb).1 ⟨h1, he⟩
      exact ⟨Or.inl ⟨nn _ h3, b, v, h3, h2, by simp [fieldValue]⟩, rfl⟩
    · rintro ⟨⟨_, b, w, h1, h2, rfl⟩ | ⟨h, _⟩, rfl⟩
      · exact ⟨⟨b, c', ((bytes_clean ext hb).2 ⟨h1, rfl⟩).1, by simpa [fieldValue] using h2, rfl⟩, rfl⟩
      · simp at h
  | true =>
    by_cases hn : val.literal.value = .null
    · simp only [decodeValue, hn, D.pure_ok_iff]
      constructor
      · rintro ⟨⟨rfl, rfl⟩, _⟩; exact ⟨Or.inr ⟨rfl, hn, rfl⟩, rfl⟩
      · rintro ⟨⟨h, _⟩ | ⟨_, _, rfl⟩, rfl⟩
        · exact absurd hn h
        · exact ⟨⟨rfl, rfl⟩, rfl⟩
    · have e : decodeValue .bytes true i val = (decodeBytes val >>= fun b => match i.fromBytes b with
          | .ok v => pure (.some v)
          | .error m => do
            D.emit (DErr.conv val.literal (.text m))
            pure .none) := by
        simp only [decodeValue]
        cases hv : val.literal.value <;> first | exact absurd hv hn | rfl
      rw [e, D.bind_ok_iff]
      constructor
      · rintro ⟨⟨b, c1, h1, h2⟩, he⟩
        have hp := bytes_keeps ext h1
        cases hw : i.fromBytes b <;> simp only [hw] at h2
        case ok w =>
          rw [D.pure_ok_iff] at h2
          obtain ⟨rfl, rfl⟩ := h2
          obtain ⟨h3, rfl⟩ := (bytes_clean ext hb).1 ⟨h1, he⟩
          exact ⟨Or.inl ⟨hn, b, w, h3, hw, by simp [fieldValue]⟩, rfl⟩
        case error m =>
          rw [D.bind_ok_iff] at h2
          obtain ⟨_, c2, h2, h3⟩ := h2
          rw [D.emit_ok_iff] at h2
          rw [D.pure_ok_iff] at h3
          obtain ⟨_, rfl⟩ := h3
          subst h2
          have := hp.length_le
          have he := congrArg List.length he
          simp [Ctx.emitError] at he
          omega
      · rintro ⟨⟨_, b, w, h1, h2, rfl⟩ | ⟨_, h, _⟩, rfl⟩
        · refine ⟨⟨b, c', ((bytes_clean ext hb).2 ⟨h1, rfl⟩).1, ?_⟩, rfl⟩
          rw [h2]; simp [fieldValue, D.pure_ok_iff]
        · exact absurd h hn

/-- **C53, `bytes`.**  A field with mode `bytes` gets a value, and no error is recorded, exactly if
the value is a string without annotation, or one annotated `(base64)` that is the Base 64 text
of some bytes, and `TryFrom` accepts the bytes (or `null`, if the field is optional); and then
it gets what `TryFrom` gives for the bytes. -/
theorem c53_bytes (ext : Externals) (hb : StandardB64 ext) (o : Bool) (i : Impls E S V) (val : Value S) (v : FVal V) (c : Ctx E S) :
    Gives (decodeValue .bytes o i val) c v ↔ BytesField i.fromBytes o val v := by
  constructor
  · intro h; exact ((bytesField_clean ext hb).1 ⟨h, rfl⟩).1
  · intro h; exact ((bytesField_clean ext hb).2 ⟨h, rfl⟩).1

/-- **C53, `bytes`.**  Whatever else is given is an error. -/
theorem c53_bytes_refused (ext : Externals) (hb : StandardB64 ext) (o : Bool) (i : Impls E S V) (val : Value S)
    (h : ∀ v, ¬ BytesField i.fromBytes o val v) : NeverClean (decodeValue .bytes o i val) := by
  rintro c ⟨v, c', h1, h2⟩
  exact h v ((bytesField_clean ext hb).1 ⟨h1, h2⟩).1

/-- **C53.**  The Base 64 text of bytes determines the bytes, and so the value of the field. -/
theorem c53_unique (val : Value S) (b b' : List UInt8) (h : BytesOf val b) (h' : BytesOf val b') : b = b' := by
  rcases h with ⟨h1, s, h2, rfl⟩ | ⟨⟨sp, h1⟩, h2⟩ <;> rcases h' with ⟨h1', s', h2', rfl⟩ | ⟨⟨sp', h1'⟩, h2'⟩
  · rw [h2] at h2'; injection h2' with h2'; rw [h2']
  · rw [h1] at h1'; simp at h1'
  · rw [h1] at h1'; simp at h1'
  · rw [h2] at h2'; injection h2' with h2'; exact b64Text_inj h2'

/-- **C53**: the helper `decode::bytes` for decoders written by hand. -/
theorem c53_decode_bytes (ext : Externals) (hb : StandardB64 ext) (val : Value S) (b : List UInt8) (c : Ctx E S) :
    Gives (decodeBytes val) c b ↔ BytesOf val b := by
  constructor
  · intro h; exact ((bytes_clean ext hb).1 ⟨h, rfl⟩).1
  · intro h; exact ((bytes_clean ext hb).2 ⟨h, rfl⟩).1

/-! ### Examples -/

namespace Demo

/-- A decoder that meets `StandardB64`. -/
@[instance_reducible] noncomputable def stdB64 : Externals where
  b64 t := open Classical in if h : ∃ b, t = utf8 (b64Text b) then .ok (Classical.choose h) else .error []
  kebab s := s

theorem stdB64_standard : StandardB64 stdB64 := by
  intro t b
  show (open Classical in if h : ∃ b, t = utf8 (b64Text b) then Except.ok (Classical.choose h) else .error []) = .ok b ↔ _
  constructor
  · intro h
    split at h
    · rename_i hx
      injection h with h
      rw [← h]
      exact Classical.choose_spec hx
    · simp at h
  · rintro rfl
    have hx : ∃ b', utf8 (b64Text b) = utf8 (b64Text b') := ⟨b, rfl⟩
    rw [dif_pos hx]
    rw [← b64Text_inj (utf8_inj (Classical.choose_spec hx))]

/-- `(base64)"aGk="` is `hi`, and so is `"hi"`. -/
example : BytesOf ⟨some ⟨0, .builtin .base64⟩, ⟨0, .string "aGk=".toList⟩⟩ [104, 105] ∧
    BytesOf ⟨none, ⟨0, .string "hi".toList⟩⟩ [104, 105] :=
  ⟨Or.inr ⟨⟨0, rfl⟩, by decide +kernel⟩, Or.inl ⟨rfl, _, rfl, by decide +kernel⟩⟩

/-- An optional `str` field gets `Some` of what `FromStr` gives, here the length. -/
example : StrField num.fromStr true ⟨none, ⟨0, .string ['a', 'b']⟩⟩ (.some (.leaf 2)) :=
  ⟨rfl, Or.inl ⟨_, _, rfl, rfl, rfl⟩⟩

/-- A number is refused. -/
example : ∀ v, ¬ StrField num.fromStr true (int ['5']) v := by
  rintro v ⟨_, ⟨s, w, h, _⟩ | ⟨_, h, _⟩⟩ <;> simp [int] at h

/-- A string that is not a Base 64 text (its padding is missing) is refused. -/
example (fromBytes : List UInt8 → Except Str (FVal Int)) :
    ∀ v, ¬ BytesField fromBytes false ⟨some ⟨0, .builtin .base64⟩, ⟨0, .string "aGk".toList⟩⟩ v := by
  rintro v (⟨_, b, w, ⟨h, _⟩ | ⟨_, h⟩, _⟩ | ⟨h, _⟩)
  · simp at h
  · simp only [Literal.string.injEq] at h
    have h := congrArg List.length h
    match b with
    | [] => simp [b64Text] at h
    | [_] => simp [b64Text] at h
    | [_, _] => simp [b64Text] at h
    | _ :: _ :: _ :: _ => simp [b64Text] at h
  · simp at h

end Demo

end Knuffel
