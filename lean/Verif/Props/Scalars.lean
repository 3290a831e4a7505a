import Verif.Theory.Decode
import Verif.Theory.Number
import Verif.Theory.Float
import Verif.Model.Containers
import Verif.Model.ConvertAst
import Verif.Props.Literals
import Verif.Spec.Print
/-!
# Scalars

C28 (type annotations of numbers), C29 (integers), C30 (wrong kinds), C31 (optional
scalars), C32 (texts and booleans), C33 (pointers and `Spanned`).
-/

namespace Knuffel
variable {E S : Type}

/-! ### C28 -/

/-- The Rust number types and their names. -/
def intNames : List (IntTy × Str) :=
  [(.i8, "i8".toList), (.u8, "u8".toList), (.i16, "i16".toList), (.u16, "u16".toList), (.i32, "i32".toList), (.u32, "u32".toList),
   (.i64, "i64".toList), (.u64, "u64".toList), (.isize, "isize".toList), (.usize, "usize".toList)]
/-- The Rust float types and their names. -/
def floatNames : List (FloatTy × Str) := [(.f32, "f32".toList), (.f64, "f64".toList)]

/-- The check accepts no annotation and the annotation `(name)`, and reports exactly one
error, at the annotation, for every other `(a)`. -/
def AcceptsOnly (check : Option (Spanned TypeName S) → D E S Unit) (name : Str) : Prop :=
  (∀ c, Gives (check none) c ()) ∧
  (∀ c span, Gives (check (some ⟨span, TypeName.fromString name⟩)) c ()) ∧
  ∀ c span a, a ≠ name → ∃ expected rust,
    Reports (check (some ⟨span, TypeName.fromString a⟩)) c [.typeName span (some (TypeName.fromString a)) expected rust]

theorem numTypeCheck_acceptsOnly (m : BuiltinType) (hm : m ≠ .usize ∧ m ≠ .isize) (rust : Str) :
    AcceptsOnly (numTypeCheck (E := E) (S := S) m rust) m.asStr := by
  have hm' : TypeName.fromString m.asStr = .builtin m := by revert hm; cases m <;> decide
  refine ⟨fun c => rfl, fun c span => ?_, fun c span a ha => ?_⟩
  · simp [Gives, numTypeCheck, hm', TypeName.asBuiltin, D.pure_eq]
  · refine ⟨ExpectedType.optional (.builtin m), rust, ?_⟩
    have : (TypeName.fromString a).asBuiltin ≠ some m := by
      unfold TypeName.fromString
      cases h : BuiltinType.fromStr a with
      | none => simp [TypeName.asBuiltin]
      | some b =>
        simp only [TypeName.asBuiltin, ne_eq, Option.some.injEq]
        rintro rfl
        exact ha (fromStr_some h)
    simp [Reports, numTypeCheck, this, Out.errors]

/-- **C28** for all integer types except `usize` and `isize` (for which it is false, see
`c28_fails`). -/
theorem c28_int_partial (ptr : Nat) (t : IntTy) (name : Str) (hn : (t, name) ∈ intNames) (h : t ≠ .usize ∧ t ≠ .isize) :
    AcceptsOnly (intScalar (E := E) (S := S) ptr t).typeCheck name := by
  have e : name = t.marker.asStr ∧ t.marker ≠ .usize ∧ t.marker ≠ .isize := by
    have : ∀ p ∈ intNames, p.1 ≠ .usize ∧ p.1 ≠ .isize → p.2 = p.1.marker.asStr ∧ p.1.marker ≠ .usize ∧ p.1.marker ≠ .isize := by
      decide
    exact this _ hn h
  rw [e.1]
  exact numTypeCheck_acceptsOnly _ e.2 _

/-- **C28** for the float types. -/
theorem c28_float {F : Type} (t : FloatTy) (round : Str → F) (zero : F) (name : Str) (hn : (t, name) ∈ floatNames) :
    AcceptsOnly (floatScalar (E := E) (S := S) t round zero).typeCheck name := by
  have e : name = t.marker.asStr ∧ t.marker ≠ .usize ∧ t.marker ≠ .isize := by
    have : ∀ p ∈ floatNames, p.2 = p.1.marker.asStr ∧ p.1.marker ≠ .usize ∧ p.1.marker ≠ .isize := by decide
    exact this _ hn
  rw [e.1]
  exact numTypeCheck_acceptsOnly _ e.2 _

example : (IntTy.u16, "u16".toList) ∈ intNames ∧ IntTy.u16 ≠ .usize ∧ IntTy.u16 ≠ .isize := by decide

/-- **C28 fails**: for the fields of types `usize` and `isize`, every annotation is
reported, also the one that names the type. -/
theorem c28_fails (ptr : Nat) (t : IntTy) (h : t = .usize ∨ t = .isize) (a : Str) (span : S) (c : Ctx E S) :
    ∃ expected rust, Reports ((intScalar (E := E) ptr t).typeCheck (some ⟨span, TypeName.fromString a⟩)) c
      [.typeName span (some (TypeName.fromString a)) expected rust] := by
  refine ⟨ExpectedType.optional (.builtin t.marker), t.name, ?_⟩
  have : (TypeName.fromString a).asBuiltin ≠ some t.marker := by
    unfold TypeName.fromString
    cases hb : BuiltinType.fromStr a with
    | none => simp [TypeName.asBuiltin]
    | some b =>
      simp only [TypeName.asBuiltin, ne_eq, Option.some.injEq]
      have hb' := fromStr_some hb
      rw [hb'] at hb
      rintro rfl
      rcases h with rfl | rfl <;> exact absurd hb (by decide)
  simp [Reports, intScalar, Scalar.provided, numTypeCheck, this, Out.errors]

/-- **C28 fails**: the value `(usize)1` is not accepted for a field of type `usize`. -/
theorem c28_fails_usize : ∀ c : Ctx E S, ∀ span lspan,
    ∃ e, Reports ((intScalar (E := E) 64 .usize).decode
      ⟨some ⟨span, TypeName.fromString "usize".toList⟩, ⟨lspan, .int .dec "1".toList⟩⟩) c [e] := by
  intro c span lspan
  refine ⟨.typeName span (some (TypeName.fromString "usize".toList)) (ExpectedType.optional (.builtin .usize)) "usize".toList, ?_⟩
  have h : (intScalar (E := E) 64 .usize).decode
      ⟨some ⟨span, TypeName.fromString "usize".toList⟩, ⟨lspan, .int .dec "1".toList⟩⟩ c = .ok 1 (c.emitError _) := rfl
  exact ⟨by rw [h]; simp, by rw [h]; rfl⟩

/-! ### C29 -/

/-- **C29**, numbers that fit: the value decoded is exactly the number written. -/
theorem c29_exact (ptr : Nat) (t : IntTy) (span : S) (r : Radix) (s : Str) (v : Int) (h : FitsAs ptr t r s v) (c : Ctx E S) :
    Gives ((intScalar ptr t).rawDecode ⟨span, .int r s⟩) c v := by
  rw [← tryFrom_ok] at h
  simp [Gives, intScalar, Scalar.provided, h, D.pure_eq]

/-- **C29**, all others: one conversion error is recorded, at the literal. -/
theorem c29_rejected (ptr : Nat) (t : IntTy) (span : S) (r : Radix) (s : Str) (h : ¬ ∃ v, FitsAs ptr t r s v) (c : Ctx E S) :
    ∃ k, Reports ((intScalar ptr t).rawDecode ⟨span, .int r s⟩) c [.conversion span (.parseInt k)] := by
  cases hv : t.tryFrom ptr r s with
  | ok v => exact absurd ⟨v, (tryFrom_ok _ _ _ _ _).1 hv⟩ h
  | error k =>
    refine ⟨k, reports_of_ok (a := 0) ?_⟩
    simp only [intScalar, Scalar.provided, hv]
    rfl

/-- **C29**: when no error was recorded, the value is the number written, and it is in range. -/
theorem c29_no_wrap (ptr : Nat) (t : IntTy) (val : Value S) (v : Int) (c c' : Ctx E S)
    (h : (intScalar ptr t).decode val c = .ok v c') (hc : c'.errors = c.errors) :
    ∃ r s, val.literal.value = .int r s ∧ FitsAs ptr t r s v := by
  obtain ⟨tn, sp, lit⟩ := val
  simp only [intScalar, Scalar.provided, D.bind_ok_iff] at h
  obtain ⟨u, c1, h1, h2⟩ := h
  have hk : c.errors <+: c1.errors := by
    cases tn with
    | none => cases h1; exact List.prefix_rfl
    | some ty =>
      simp only [numTypeCheck] at h1
      split at h1
      · cases h1; exact List.prefix_append _ _
      · cases h1; exact List.prefix_rfl
  have len : ∀ e : DErr S, (c1.emitError e).errors ≠ c.errors := by
    intro e he
    have := hk.length_le
    rw [← he] at this
    simp at this
  cases lit with
  | int r s =>
    refine ⟨r, s, rfl, ?_⟩
    dsimp only at h2
    cases hv : t.tryFrom ptr r s with
    | ok w =>
      rw [hv] at h2
      cases h2
      exact (tryFrom_ok _ _ _ _ _).1 hv
    | error k =>
      rw [hv] at h2
      simp only [D.bind_eq, D.emit_eq, D.pure_eq] at h2
      cases h2
      exact absurd hc (len _)
  | _ =>
    simp only [D.bind_eq, D.emit_eq, D.pure_eq] at h2
    cases h2
    exact absurd hc (len _)

/-- **C29**: the integers of an accepted document are all numbers in the sense of the
specification, so `FitsAs` is only a matter of range and minus sign. -/
theorem c29_written (r : Radix) (s : Str) (h : Literal.Printable (.int r s)) : ∃ minus v, IntText (baseOf r) s minus v := by
  have hd : ∀ c ∈ digitsOf r, ∃ d, DigitIs (baseOf r) c d := by
    have : ∀ r ∈ [Radix.bin, .oct, .dec, .hex], ∀ c ∈ digitsOf r, (toDigit (baseOf r) c).isSome := by decide
    intro c hc
    have h := this r (by cases r <;> decide) c hc
    obtain ⟨d, hd⟩ := Option.isSome_iff_exists.1 h
    exact ⟨d, (toDigit_iff (by cases r <;> decide) _ _).1 hd⟩
  have key : ∀ s : Str, Digits1 r s → ∃ n, Denotes (baseOf r) s n := by
    intro s hs
    have : ∀ s : Str, (∀ c ∈ s, c ∈ digitsOf r) → ∀ n, ∃ m, Cont (baseOf r) n s m := by
      intro s
      induction s with
      | nil => intro _ n; exact ⟨n, .nil⟩
      | cons c cs ih =>
        intro hs n
        obtain ⟨d, hc⟩ := hd c (hs c (by simp))
        obtain ⟨m, hm⟩ := ih (fun c hc => hs c (by simp [hc])) (n * baseOf r + d)
        exact ⟨m, .cons hc hm⟩
    obtain ⟨m, hm⟩ := this s hs.2 0
    exact ⟨m, cont_denotes hs.1 hm⟩
  rcases h with h | ⟨t, rfl | rfl, h⟩
  · obtain ⟨n, hn⟩ := key _ h
    exact ⟨_, _, .plain hn⟩
  · obtain ⟨n, hn⟩ := key _ h
    exact ⟨_, _, .minus hn⟩
  · obtain ⟨n, hn⟩ := key _ h
    exact ⟨_, _, .plus hn⟩

/-- **C29**: a text denotes one number only. -/
theorem c29_unique (r : Radix) (s : Str) (m m' : Bool) (v v' : Int) (h : IntText (baseOf r) s m v)
    (h' : IntText (baseOf r) s m' v') : m = m' ∧ v = v' :=
  intText_unique (by cases r <;> decide) h h'

theorem fitsDemo : FitsAs 64 .i8 .hex "-80".toList (-128) :=
  ⟨true, .minus (.snoc (.one (d := 8) ⟨by decide, by decide⟩) (d := 0) ⟨by decide, by decide⟩), by decide, by decide, by decide⟩
example (c : Ctx E S) (sp : S) : Gives ((intScalar 64 .i8).rawDecode ⟨sp, .int .hex "-80".toList⟩) c (-128) :=
  c29_exact _ _ _ _ _ _ fitsDemo c
example : ¬ ∃ v, FitsAs 64 .u8 .dec "256".toList v := by
  rintro ⟨v, h⟩
  rw [← tryFrom_ok] at h
  rw [show IntTy.tryFrom 64 .u8 .dec "256".toList = .error .posOverflow by decide] at h
  cases h
/-- `-0` is not accepted for unsigned types. -/
example : ¬ ∃ v, FitsAs 64 .u8 .dec "-0".toList v := by
  rintro ⟨v, h⟩
  rw [← tryFrom_ok] at h
  rw [show IntTy.tryFrom 64 .u8 .dec "-0".toList = .error .invalidDigit by decide] at h
  cases h

/-! ### C30 -/

/-- The decoder of a type whose values are written by literals as `Written` says: a literal
that is right gives its value and leaves the context alone; for any other literal exactly
one error is recorded, at that literal: if it is of another kind than `kind` the error says what
kind was found (and what was expected, see C58), otherwise the text could not be converted. -/
def DecodesExactly {α : Type} (d : Scalar E S α) (kind : Kind) (Written : Literal → α → Prop) : Prop :=
  (∀ c span lit v, Written lit v → Gives (d.rawDecode ⟨span, lit⟩) c v) ∧
  (∀ c span lit, (¬ ∃ v, Written lit v) → ∃ e, Reports (d.rawDecode ⟨span, lit⟩) c [e] ∧
    ((lit.kind ≠ kind ∧ ∃ expected, e = .scalarKind span expected lit.kind) ∨ (lit.kind = kind ∧ ∃ src, e = .conversion span src)))

/-- **C30** for the integer types. -/
theorem c30_int (ptr : Nat) (t : IntTy) :
    DecodesExactly (intScalar (E := E) (S := S) ptr t) .int fun lit v => ∃ r s, lit = .int r s ∧ FitsAs ptr t r s v := by
  constructor
  · rintro c span lit v ⟨r, s, rfl, h⟩
    exact c29_exact _ _ _ _ _ _ h c
  · intro c span lit h
    cases lit with
    | int r s =>
      obtain ⟨k, hk⟩ := c29_rejected (E := E) ptr t span r s (fun ⟨v, hv⟩ => h ⟨v, r, s, rfl, hv⟩) c
      exact ⟨_, hk, Or.inr ⟨rfl, _, rfl⟩⟩
    | _ => exact ⟨_, reports_of_ok rfl, Or.inl ⟨by simp [Literal.kind], _, rfl⟩⟩

/-- **C30** for the float types. -/
theorem c30_float {F : Type} (t : FloatTy) (round : Str → F) (zero : F) :
    DecodesExactly (floatScalar (E := E) (S := S) t round zero) .decimal fun lit v => ∃ s, lit = .decimal s ∧ FloatText s ∧ v = round s := by
  constructor
  · rintro c span lit v ⟨s, rfl, h, rfl⟩
    rw [← floatSyntax_iff] at h
    simp [Gives, floatScalar, Scalar.provided, h, D.pure_eq]
  · intro c span lit h
    cases lit with
    | decimal s =>
      have : floatSyntax s = false := by
        rw [Bool.eq_false_iff, ne_eq, floatSyntax_iff]
        exact fun hf => h ⟨_, s, rfl, hf, rfl⟩
      refine ⟨.conversion span (.parseFloat s.isEmpty), reports_of_ok (a := zero) ?_, Or.inr ⟨rfl, _, rfl⟩⟩
      simp only [floatScalar, Scalar.provided, this]
      rfl
    | _ => exact ⟨_, reports_of_ok rfl, Or.inl ⟨by simp [Literal.kind], _, rfl⟩⟩

/-- **C30** for `bool`. -/
theorem c30_bool : DecodesExactly (boolScalar (E := E) (S := S)) .bool fun lit v => lit = .bool v := by
  constructor
  · rintro c span lit v rfl
    rfl
  · intro c span lit h
    cases lit with
    | bool b => exact absurd ⟨b, rfl⟩ h
    | _ => exact ⟨_, reports_of_ok rfl, Or.inl ⟨by simp [Literal.kind], _, rfl⟩⟩

/-- The types that hold a text. -/
def textScalars : List (Scalar E S Str) := [stringScalar, pathBufScalar, arcPathScalar, arcStrScalar]

/-- **C30** for the types that hold a text. -/
theorem c30_text (d : Scalar E S Str) (hd : d ∈ textScalars) : DecodesExactly d .string fun lit v => lit = .string v := by
  have key : d.rawDecode = textRaw := by
    simp only [textScalars, List.mem_cons, List.not_mem_nil, or_false] at hd
    rcases hd with rfl | rfl | rfl | rfl <;> rfl
  constructor
  · rintro c span lit v rfl
    rw [key]
    rfl
  · intro c span lit h
    rw [key]
    cases lit with
    | string b => exact absurd ⟨b, rfl⟩ h
    | _ => exact ⟨_, reports_of_ok rfl, Or.inl ⟨by simp [Literal.kind], _, rfl⟩⟩

example : FloatText "-1.5e3".toList := by rw [← floatSyntax_iff]; decide
example : ¬ FloatText "1e".toList := by rw [← floatSyntax_iff]; decide
example : ¬ ∃ v, ∃ r s, Literal.string "x".toList = .int r s ∧ FitsAs 64 .u8 r s v := by simp

/-! ### C50 -/

theorem last_mem {s : Str} {P : Char → Prop} (h : ∀ c ∈ s, P c) : ∀ c, s.getLast? = some c → P c :=
  fun c hc => h c (List.mem_of_getLast? hc)

theorem last_append {s t : Str} (h : t ≠ []) : (s ++ t).getLast? = t.getLast? := by
  rw [List.getLast?_append]
  cases ht : t.getLast? with
  | none => exact absurd (List.getLast?_eq_none_iff.1 ht) h
  | some c => rfl

theorem last_cons {c : Char} {t : Str} (h : t ≠ []) : (c :: t).getLast? = t.getLast? := last_append (s := [c]) h

/-- What a float cannot end with. -/
theorem FloatText.last {s : Str} (h : FloatText s) : ∀ c, s.getLast? = some c → c ∉ ['e', 'E', '+', '-'] := by
  have nd : ∀ c ∈ "0123456789".toList, c ∉ ['e', 'E', '+', '-'] := by decide
  obtain ⟨sign, u, rfl, -, h⟩ := h
  have hu : u ≠ [] ∧ ∀ c, u.getLast? = some c → c ∉ ['e', 'E', '+', '-'] := by
    rcases h with ⟨a, b, e, h, ha, hb, hne, he⟩ | h
    · have ha' := last_mem (P := fun c => c ∉ ['e', 'E', '+', '-']) fun c hc => nd c (ha c hc)
      have hb' := last_mem (P := fun c => c ∉ ['e', 'E', '+', '-']) fun c hc => nd c (hb c hc)
      rcases he with rfl | ⟨x, sg, ds, rfl, h1, h2, h3, h4⟩
      · rcases h with ⟨rfl, rfl⟩ | rfl
        · rw [List.append_nil] at hne ⊢
          exact ⟨hne, ha'⟩
        · refine ⟨by simp, ?_⟩
          rw [last_append (by simp), List.append_nil]
          by_cases hb0 : b = []
          · subst hb0
            intro c hc
            cases hc
            decide
          · rw [last_cons hb0]
            exact hb'
      · have hd := last_mem (P := fun c => c ∉ ['e', 'E', '+', '-']) fun c hc => nd c (h3 c hc)
        have : ∀ v : Str, (v ++ x :: (sg ++ ds)).getLast? = ds.getLast? := by
          intro v
          rw [last_append (by simp), last_cons (by simp [h4]), last_append h4]
        rcases h with ⟨rfl, -⟩ | rfl
        · exact ⟨by simp, by rw [this]; exact hd⟩
        · refine ⟨by simp, ?_⟩
          rw [show a ++ '.' :: (b ++ x :: (sg ++ ds)) = (a ++ '.' :: b) ++ x :: (sg ++ ds) by simp, this]
          exact hd
    · refine ⟨by rintro rfl; revert h; decide, ?_⟩
      intro c hc hm
      have hl : (u.map Char.toLower).getLast? = some c.toLower := by rw [List.getLast?_map, hc]; rfl
      have h1 : c.toLower ∈ ['e', '+', '-'] := by
        simp only [List.mem_cons, List.not_mem_nil, or_false] at hm
        rcases hm with rfl | rfl | rfl | rfl <;> decide
      have h2 : ∀ w ∈ ["inf".toList, "infinity".toList, "nan".toList], ∀ c ∈ ['e', '+', '-'], w.getLast? ≠ some c := by decide
      exact h2 _ h _ h1 hl
  rw [last_append hu.1]
  exact hu.2

theorem digits_last {s : Str} (h0 : s ≠ []) (h : ∀ c ∈ s, c ∈ "0123456789".toList) :
    ∃ c, s.getLast? = some c ∧ c ∈ "0123456789".toList := by
  cases hs : s.getLast? with
  | none => exact absurd (List.getLast?_eq_none_iff.1 hs) h0
  | some c => exact ⟨c, rfl, h c (List.mem_of_getLast? hs)⟩

theorem DecimalText.last {t : Str} (h : DecimalText t) :
    ∃ c, t.getLast? = some c ∧ (c ∈ "0123456789".toList ∨ c ∈ ['e', 'E', '+', '-']) := by
  have core : ∀ u : Str, (∃ a f e, u = a ++ f ++ e ∧ Digits1 .dec a ∧ f ++ e ≠ [] ∧ (f = [] ∨ ∃ b, f = '.' :: b ∧ Digits1 .dec b) ∧
      (e = [] ∨ ∃ x b, (x = 'e' ∨ x = 'E') ∧ e = x :: b ∧ Signed Digits0 b)) →
      u ≠ [] ∧ ∃ c, u.getLast? = some c ∧ (c ∈ "0123456789".toList ∨ c ∈ ['e', 'E', '+', '-']) := by
    rintro u ⟨a, f, e, rfl, ha, -, hf, he⟩
    refine ⟨by simp [ha.1], ?_⟩
    rcases he with rfl | ⟨x, b, hx, rfl, hb⟩
    · rw [List.append_nil]
      rcases hf with rfl | ⟨b, rfl, hb⟩
      · rw [List.append_nil]
        obtain ⟨c, h1, h2⟩ := digits_last ha.1 ha.2
        exact ⟨c, h1, Or.inl h2⟩
      · rw [last_append (by simp), last_cons hb.1]
        obtain ⟨c, h1, h2⟩ := digits_last hb.1 hb.2
        exact ⟨c, h1, Or.inl h2⟩
    · rw [last_append (by simp)]
      have d0 : ∀ s : Str, Digits0 s → s ≠ [] → ∃ c, s.getLast? = some c ∧ (c ∈ "0123456789".toList ∨ c ∈ ['e', 'E', '+', '-']) := by
        intro s hs h0
        obtain ⟨c, h1, h2⟩ := digits_last h0 hs
        exact ⟨c, h1, Or.inl h2⟩
      by_cases hb0 : b = []
      · subst hb0
        exact ⟨x, rfl, Or.inr (by rcases hx with rfl | rfl <;> decide)⟩
      · rw [last_cons hb0]
        rcases hb with hb | ⟨t, ht, hb⟩
        · exact d0 b hb hb0
        · by_cases ht0 : t = []
          · subst ht0
            rcases ht with rfl | rfl
            · exact ⟨'-', rfl, Or.inr (by decide)⟩
            · exact ⟨'+', rfl, Or.inr (by decide)⟩
          · rcases ht with rfl | rfl <;> (rw [last_cons ht0]; exact d0 t hb ht0)
  rcases h with h | ⟨u, hu, h⟩
  · exact (core t h).2
  · obtain ⟨h0, h1⟩ := core u h
    rcases hu with rfl | rfl <;> (rw [last_cons h0]; exact h1)

/-- **C50.** A decimal that can be read from a text is a float in the eyes of Rust exactly
if it ends with a digit; the only ones that do not are those with an exponent without
digits (`1e`, `1.5E-`). -/
theorem c50_decimals (t : Str) (h : DecimalText t) : FloatText t ↔ ∃ d ∈ "0123456789".toList, t.getLast? = some d := by
  have core : ∀ u : Str, (∃ a f e, u = a ++ f ++ e ∧ Digits1 .dec a ∧ f ++ e ≠ [] ∧ (f = [] ∨ ∃ b, f = '.' :: b ∧ Digits1 .dec b) ∧
      (e = [] ∨ ∃ x b, (x = 'e' ∨ x = 'E') ∧ e = x :: b ∧ Signed Digits0 b)) →
      (∃ d ∈ "0123456789".toList, u.getLast? = some d) →
      ∃ a b e, (u = a ++ e ∧ b = [] ∨ u = a ++ '.' :: (b ++ e)) ∧ AllDigits a ∧ AllDigits b ∧ a ++ b ≠ [] ∧ FloatExponent e := by
    rintro u ⟨a, f, e, rfl, ha, -, hf, he⟩ ⟨d, hd, hl⟩
    have he' : FloatExponent e := by
      rcases he with rfl | ⟨x, b, hx, rfl, hb⟩
      · exact Or.inl rfl
      · rw [last_append (by simp)] at hl
        have hb0 : b ≠ [] := by
          rintro rfl
          cases hl
          rcases hx with rfl | rfl <;> exact absurd hd (by decide)
        rw [last_cons hb0] at hl
        rcases hb with hb | ⟨t, ht, hb⟩
        · exact Or.inr ⟨x, [], b, rfl, hx, Or.inl rfl, hb, hb0⟩
        · have ht0 : t ≠ [] := by
            rintro rfl
            rcases ht with rfl | rfl <;> (cases hl; exact absurd hd (by decide))
          rcases ht with rfl | rfl
          · exact Or.inr ⟨x, ['-'], t, rfl, hx, by simp, hb, ht0⟩
          · exact Or.inr ⟨x, ['+'], t, rfl, hx, by simp, hb, ht0⟩
    rcases hf with rfl | ⟨b, rfl, hb⟩
    · exact ⟨a, [], e, Or.inl ⟨by simp, rfl⟩, ha.2, by simp [AllDigits], by simpa using ha.1, he'⟩
    · exact ⟨a, b, e, Or.inr (by simp), ha.2, hb.2, by simp [ha.1], he'⟩
  constructor
  · intro hf
    have hl := hf.last
    obtain ⟨c, h1, h2⟩ := h.last
    rcases h2 with h2 | h2
    · exact ⟨c, h2, h1⟩
    · exact absurd h2 (hl c h1)
  · rintro ⟨d, hd, hl⟩
    rcases h with h | ⟨u, hu, h⟩
    · exact ⟨[], t, rfl, Or.inl rfl, Or.inl (core t h ⟨d, hd, hl⟩)⟩
    · have hu0 : u ≠ [] := by
        rintro rfl
        obtain ⟨a, f, e, h, ha, -⟩ := h
        simp only [List.nil_eq, List.append_eq_nil_iff] at h
        exact ha.1 h.1.1
      rcases hu with rfl | rfl
      · rw [last_cons hu0] at hl
        exact ⟨['-'], u, rfl, by simp, Or.inl (core u h ⟨d, hd, hl⟩)⟩
      · rw [last_cons hu0] at hl
        exact ⟨['+'], u, rfl, by simp, Or.inl (core u h ⟨d, hd, hl⟩)⟩

example : DecimalText "-1.5e".toList ∧ ¬ FloatText "-1.5e".toList := by
  constructor
  · exact Or.inr ⟨"1.5e".toList, Or.inl rfl, ['1'], ".5".toList, ['e'], rfl, ⟨by simp, by decide⟩, by decide,
      Or.inr ⟨['5'], rfl, by simp, by decide⟩, Or.inr ⟨'e', [], Or.inl rfl, rfl, Or.inl (by simp [Digits0])⟩⟩
  · rw [← floatSyntax_iff]; decide

/-! ### C32 -/

/-- **C32**: a string literal is decoded to exactly its text. -/
theorem c32_text (d : Scalar E S Str) (hd : d ∈ textScalars) (span : S) (s : Str) (c : Ctx E S) :
    Gives (d.decode ⟨none, ⟨span, .string s⟩⟩) c s := by
  simp only [textScalars, List.mem_cons, List.not_mem_nil, or_false] at hd
  rcases hd with rfl | rfl | rfl | rfl <;> rfl

/-- **C32**: a boolean literal is decoded to exactly that boolean. -/
theorem c32_bool (span : S) (b : Bool) (c : Ctx E S) : Gives (boolScalar.decode ⟨none, ⟨span, .bool b⟩⟩) c b := rfl

/-- The type check reports exactly one error, at the annotation, for every annotation. -/
def AcceptsNone (check : Option (Spanned TypeName S) → D E S Unit) : Prop :=
  (∀ c, Gives (check none) c ()) ∧
  ∀ c span t, ∃ rust, Reports (check (some ⟨span, t⟩)) c [.typeName span (some t) ⟨[], true⟩ rust]

theorem noTypeCheck_acceptsNone (r : Str) : AcceptsNone (noTypeCheck (E := E) (S := S) r) :=
  ⟨fun _ => rfl, fun _ _ _ => ⟨r, by simp [noTypeCheck], rfl⟩⟩

/-- **C32**: any annotation is reported, and the value is decoded all the same. -/
theorem c32_annotation :
    (∀ d ∈ textScalars (E := E) (S := S), AcceptsNone d.typeCheck) ∧ AcceptsNone (boolScalar (E := E) (S := S)).typeCheck := by
  refine ⟨fun d hd => ?_, noTypeCheck_acceptsNone _⟩
  simp only [textScalars, List.mem_cons, List.not_mem_nil, or_false] at hd
  rcases hd with rfl | rfl | rfl | rfl <;> exact noTypeCheck_acceptsNone _

/-- **C32**: with an annotation, the whole decoding gives the value and exactly one error more. -/
theorem c32_annotated (d : Scalar E S Str) (hd : d ∈ textScalars) (span tspan : S) (t : TypeName) (s : Str) (c : Ctx E S) :
    ∃ c' rust, d.decode ⟨some ⟨tspan, t⟩, ⟨span, .string s⟩⟩ c = .ok s c' ∧
      c'.errors = c.errors ++ [.typeName tspan (some t) ⟨[], true⟩ rust] := by
  simp only [textScalars, List.mem_cons, List.not_mem_nil, or_false] at hd
  rcases hd with rfl | rfl | rfl | rfl <;> exact ⟨_, _, rfl, rfl⟩

example : (stringScalar : Scalar E S Str) ∈ textScalars := by simp [textScalars]

/-! ### C31 and C33 -/

/-- The type uses the provided method `decode`: first the annotation is checked, then the
literal is decoded.  All scalar types of knuffel do, except `Value`. -/
def Scalar.UsesProvided {α : Type} (d : Scalar E S α) : Prop :=
  ∀ v c, d.decode v c = match d.typeCheck v.typeName c with
    | .ok _ c' => d.rawDecode v.literal c'
    | .err e c' => .err e c'
    | .panic => .panic

theorem usesProvided {α : Type} (t : Option (Spanned TypeName S) → D E S Unit) (r : Spanned Literal S → D E S α) :
    (Scalar.provided t r).UsesProvided := by
  intro v c
  show (t v.typeName >>= fun _ => r v.literal) c = _
  rw [D.bind_eq]
  show _ = match t v.typeName c with | .ok _ c' => _ | .err e c' => _ | .panic => _
  cases t v.typeName c <;> rfl

theorem option_provided {α : Type} (d : Scalar E S α) : (optionScalar d).UsesProvided := usesProvided _ _
theorem ptr_provided {α : Type} (k : PtrKind) (d : Scalar E S α) : (ptrScalar k d).UsesProvided := usesProvided _ _
theorem spanned_provided {α Q : Type} (ds : SpanDecoder E S Q) (d : Scalar E S α) : (spannedScalar ds d).UsesProvided :=
  usesProvided _ _

/-- The scalar types of knuffel use the provided method. -/
theorem provided_all {F α Q : Type} (ptr : Nat) (t : IntTy) (ft : FloatTy) (round : Str → F) (zero : F) (k : PtrKind)
    (ds : SpanDecoder E S Q) (d : Scalar E S α) :
    (intScalar (E := E) (S := S) ptr t).UsesProvided ∧ (floatScalar (E := E) (S := S) ft round zero).UsesProvided ∧
    (boolScalar (E := E) (S := S)).UsesProvided ∧ (∀ d ∈ textScalars (E := E) (S := S), d.UsesProvided) ∧
    (literalScalar (E := E) (S := S)).UsesProvided ∧ (optionScalar d).UsesProvided ∧ (ptrScalar k d).UsesProvided ∧
    (spannedScalar ds d).UsesProvided := by
  refine ⟨usesProvided _ _, usesProvided _ _, usesProvided _ _, ?_, usesProvided _ _, usesProvided _ _, usesProvided _ _,
    usesProvided _ _⟩
  intro d hd
  simp only [textScalars, List.mem_cons, List.not_mem_nil, or_false] at hd
  rcases hd with rfl | rfl | rfl | rfl <;> exact usesProvided _ _

/-- The outcome with a function applied to the value: the same context, and the same error. -/
def Out.mapValue {α β : Type} (f : α → β) : Out E S α → Out E S β
  | .ok a c => .ok (f a) c
  | .err e c => .err e c
  | .panic => .panic

theorem D.map_eq {α β : Type} (f : α → β) (x : D E S α) (c : Ctx E S) : x.map f c = (x c).mapValue f := by
  unfold D.map
  rw [D.bind_eq]
  cases x c <;> rfl

/-- **C31**, all literals but null, for types that use the provided `decode`: `Option<T>` behaves as `T`,
with the value in `Some`. -/
theorem c31_some_partial {α : Type} (d : Scalar E S α) (hd : d.UsesProvided) (v : Value S) (hv : v.literal.value ≠ .null)
    (c : Ctx E S) : (optionScalar d).decode v c = (d.decode v c).mapValue some := by
  rw [hd, option_provided d]
  show (match d.typeCheck v.typeName c with | .ok _ c' => _ | .err e c' => _ | .panic => _) = _
  cases d.typeCheck v.typeName c with
  | ok u c' =>
    obtain ⟨tn, sp, lit⟩ := v
    cases lit with
    | null => exact absurd rfl hv
    | _ => exact D.map_eq _ _ _
  | err e c' => rfl
  | panic => rfl

/-- **C31**, null: the annotation is checked as for `T`, and the value is `None`. -/
theorem c31_null {α : Type} (d : Scalar E S α) (v : Value S) (hv : v.literal.value = .null) (c : Ctx E S) :
    (optionScalar d).decode v c = (d.typeCheck v.typeName c).mapValue fun _ => none := by
  obtain ⟨tn, sp, lit⟩ := v
  obtain rfl : lit = .null := hv
  rw [option_provided d]
  show (match d.typeCheck tn c with | .ok _ c' => _ | .err e c' => _ | .panic => _) = _
  cases d.typeCheck tn c <;> rfl

/-- **C31**: `None` is the value exactly for null, whatever `T`. -/
theorem c31_none_iff {α : Type} (d : Scalar E S α) (v : Value S) (x : Option α) (c c' : Ctx E S)
    (h : (optionScalar d).decode v c = .ok x c') : x = none ↔ v.literal.value = .null := by
  obtain ⟨tn, sp, lit⟩ := v
  rw [option_provided d] at h
  dsimp only at h
  split at h
  · next c1 h1 =>
    cases lit with
    | null => cases h; simp
    | _ =>
      have key : ∀ val, (d.rawDecode val).map some c1 = .ok x c' → x ≠ none := by
        intro val hm
        rw [D.map_eq] at hm
        cases ho : d.rawDecode val c1 with
        | ok a c2 => rw [ho] at hm; cases hm; simp
        | err e c2 => rw [ho] at hm; cases hm
        | panic => rw [ho] at hm; cases hm
      have := key _ h
      simp [this]
  · cases h
  · cases h

example (c : Ctx E S) (sp : S) : (optionScalar (intScalar 64 .u8)).decode ⟨none, ⟨sp, .int .dec "7".toList⟩⟩ c = .ok (some 7) c := by
  rw [c31_some_partial (intScalar 64 .u8) (usesProvided _ _) _ (by simp)]
  rfl
example (c : Ctx E S) (sp : S) : (optionScalar (intScalar 64 .u8)).decode ⟨none, ⟨sp, .null⟩⟩ c = .ok none c := by
  rw [c31_null _ _ rfl]
  rfl

/-- **C31 fails** for `Option<Value>`: decoding anything but null panics, although decoding
into `Value` works. -/
theorem c31_fails {T : Type} (ds : SpanDecoder E S T) (v : Value S) (hv : v.literal.value ≠ .null) (c : Ctx E S) :
    (optionScalar (valueScalar ds)).decode v c = .panic ∧ (valueScalar ds).decode v c ≠ .panic := by
  constructor
  · obtain ⟨tn, sp, lit⟩ := v
    cases lit with
    | null => exact absurd rfl hv
    | _ => rfl
  · obtain ⟨tn, sp, lit⟩ := v
    cases tn <;> exact nofun

/-- **C33**, for types that use the provided `decode`: `Box<T>`, `Rc<T>` and `Arc<T>` behave as `T`,
with the value in the pointer. -/
theorem c33_pointer_partial {α : Type} (k : PtrKind) (d : Scalar E S α) (hd : d.UsesProvided) (v : Value S) (c : Ctx E S) :
    (ptrScalar k d).decode v c = (d.decode v c).mapValue fun a => ⟨k, a, 0⟩ := by
  rw [hd, ptr_provided k d]
  show (match d.typeCheck v.typeName c with | .ok _ c' => _ | .err e c' => _ | .panic => _) = _
  cases d.typeCheck v.typeName c with
  | ok u c' => exact D.map_eq _ _ _
  | err e c' => rfl
  | panic => rfl

/-- **C33**, for types that use the provided `decode`: `Spanned<T>` behaves as `T`, with the value and the
decoded span of the literal. -/
theorem c33_spanned_partial {α Q : Type} (ds : SpanDecoder E S Q) (d : Scalar E S α) (hd : d.UsesProvided) (v : Value S) (c : Ctx E S) :
    (spannedScalar ds d).decode v c = match d.decode v c with
      | .ok a c' => .ok ⟨(ds v.literal.span c').1, a⟩ (ds v.literal.span c').2
      | .err e c' => .err e c'
      | .panic => .panic := by
  rw [hd, spanned_provided ds d]
  show (match d.typeCheck v.typeName c with | .ok _ c' => _ | .err e c' => _ | .panic => _) = _
  cases d.typeCheck v.typeName c with
  | ok u c' =>
    show (d.rawDecode v.literal >>= _) c' = match d.rawDecode v.literal c' with | .ok _ _ => _ | .err _ _ => _ | .panic => _
    rw [D.bind_eq]
    cases d.rawDecode v.literal c' <;> rfl
  | err e c' => rfl
  | panic => rfl

/-- **C33**, spans of the parser: they are kept unchanged. -/
theorem c33_same_span_partial {α : Type} (d : Scalar E S α) (hd : d.UsesProvided) (v : Value S) (c : Ctx E S) :
    (spannedScalar SpanDecoder.same d).decode v c = (d.decode v c).mapValue fun a => ⟨v.literal.span, a⟩ := by
  rw [c33_spanned_partial _ _ hd]
  cases d.decode v c <;> rfl

example (c : Ctx E S) (sp : S) :
    (ptrScalar .arc (spannedScalar .same boolScalar)).decode ⟨none, ⟨sp, .bool true⟩⟩ c = .ok ⟨.arc, ⟨sp, true⟩, 0⟩ c := by
  rw [c33_pointer_partial _ _ (spanned_provided _ _), c33_same_span_partial boolScalar (usesProvided _ _)]
  rfl

/-- **C33 fails** for `Box<Value>`, `Rc<Value>`, `Arc<Value>` and `Spanned<Value>`: decoding panics. -/
theorem c33_fails {T Q : Type} (k : PtrKind) (ds : SpanDecoder E S T) (dq : SpanDecoder E S Q) (v : Value S) (c : Ctx E S) :
    (ptrScalar k (valueScalar ds)).decode v c = .panic ∧ (spannedScalar dq (valueScalar ds)).decode v c = .panic ∧
    (valueScalar ds).decode v c ≠ .panic := by
  refine ⟨rfl, rfl, ?_⟩
  obtain ⟨tn, sp, lit⟩ := v
  cases tn <;> exact nofun

end Knuffel
