import Verif.Spec.Schema
import Verif.Theory.Settles
import Verif.Theory.DeriveNode
import Verif.Theory.Number
import Verif.Theory.Float
/-!
# What declared types read

The induction behind C72.
-/

set_option linter.unusedSectionVars false

namespace Knuffel
namespace Schema
variable {E S : Type} [Externals]

/-! ### Values -/

theorem numTypeCheck_settles (m : BuiltinType) (n : Str) (ty : Option (Spanned TypeName S)) :
    Settles (E := E) (numTypeCheck m n ty) fun _ => ∀ tn, ty = some tn → tn.value = .builtin m := by
  unfold numTypeCheck
  cases ty with
  | none => exact (Settles.pure ()).imp fun _ => by simp
  | some tn =>
    have key : tn.value.asBuiltin ≠ some m ↔ ¬ tn.value = .builtin m := by
      cases h : tn.value <;> simp [TypeName.asBuiltin]
    refine Settles.ite (fun h => (Settles.emit _).imp fun _ => ?_) (fun h => (Settles.pure ()).imp fun _ => ?_)
    · simpa using key.1 h
    · simpa [key] using h

theorem noTypeCheck_settles (n : Str) (ty : Option (Spanned TypeName S)) :
    Settles (E := E) (noTypeCheck n ty) fun _ => ty = none := by
  unfold noTypeCheck
  cases ty with
  | none => exact (Settles.pure ()).imp fun _ => by simp
  | some tn => exact (Settles.emit _).imp fun _ => by simp

/-- The literals that are read by a type with `DecodeScalar`. -/
def Scal.Raw (ptr : Nat) (t : Scal) (lit : Literal) (x : FVal Leaf) : Prop :=
  match t with
  | .int t => ∃ r ds n, lit = .int r ds ∧ FitsAs ptr t r ds n ∧ x = .leaf (.int n)
  | .float _ => ∃ s, lit = .decimal s ∧ FloatText s ∧ x = .leaf (.float s)
  | .bool => ∃ b, lit = .bool b ∧ x = .bool b
  | .text => ∃ s, lit = .string s ∧ x = .leaf (.text s)
  | .choice _ vs => ∃ s w, lit = .string s ∧ vs.find? (fun w => s = w.name) = some w ∧
      x = .variant w.ident (.record [])
  | .str _ => False
  | .bytes => False

theorem Scal.null_raw (ptr : Nat) (t : Scal) (x : FVal Leaf) : ¬ t.Raw ptr .null x := by
  cases t <;> simp [Scal.Raw]

theorem Scal.reads_iff (ptr : Nat) (t : Scal) (h : t.mode = .normal) (v : Value S) (x : FVal Leaf) :
    t.Reads ptr v x ↔ t.Annotation v.typeName ∧ t.Raw ptr v.literal.value x := by
  cases t <;> first | rfl | simp [Scal.mode] at h

theorem Scal.check_settles (ptr : Nat) (t : Scal) (h : t.mode = .normal) (ty : Option (Spanned TypeName S)) :
    Settles (E := E) ((t.scalar ptr).typeCheck ty) fun _ => t.Annotation ty := by
  cases t with
  | int t => exact numTypeCheck_settles _ _ _
  | float t => exact numTypeCheck_settles _ _ _
  | bool => exact noTypeCheck_settles _ _
  | text => exact noTypeCheck_settles _ _
  | choice rt vs => exact noTypeCheck_settles _ _
  | str _ => simp [Scal.mode] at h
  | bytes => simp [Scal.mode] at h

theorem Scal.raw_settles (ptr : Nat) (t : Scal) (h : t.mode = .normal) (lit : Spanned Literal S) :
    Settles (E := E) ((t.scalar ptr).rawDecode lit) (t.Raw ptr lit.value) := by
  obtain ⟨sp, lit⟩ := lit
  cases t with
  | int t =>
    have : Settles (E := E) ((intScalar ptr t).rawDecode ⟨sp, lit⟩) fun n => ∃ r ds, lit = .int r ds ∧ FitsAs ptr t r ds n := by
      cases lit with
      | int r ds =>
        simp only [intScalar, Scalar.provided]
        cases hv : t.tryFrom ptr r ds with
        | ok v =>
          refine (Settles.pure v).imp fun n => ?_
          constructor
          · rintro rfl; exact ⟨r, ds, rfl, (tryFrom_ok _ _ _ _ _).1 hv⟩
          · rintro ⟨r', ds', e, hf⟩
            simp only [Literal.int.injEq] at e
            obtain ⟨rfl, rfl⟩ := e
            rw [← tryFrom_ok, hv] at hf
            simpa using hf.symm
        | error k =>
          refine (Settles.emit_bind _ fun _ => Keeps.pure _).imp fun n => ?_
          simp only [false_iff]
          rintro ⟨r', ds', e, hf⟩
          simp only [Literal.int.injEq] at e
          obtain ⟨rfl, rfl⟩ := e
          rw [← tryFrom_ok, hv] at hf
          simp at hf
      | _ => exact (Settles.emit_bind _ fun _ => Keeps.pure _).imp fun n => by simp
    refine (this.map _).imp fun x => ?_
    simp only [Scal.Raw]
    constructor
    · rintro ⟨n, ⟨r, ds, h1, h2⟩, h3⟩; exact ⟨r, ds, n, h1, h2, h3⟩
    · rintro ⟨r, ds, n, h1, h2, h3⟩; exact ⟨n, ⟨r, ds, h1, h2⟩, h3⟩
  | float t =>
    have : Settles (E := E) ((floatScalar t id []).rawDecode ⟨sp, lit⟩) fun s => lit = .decimal s ∧ FloatText s := by
      cases lit with
      | decimal s =>
        simp only [floatScalar, Scalar.provided]
        refine Settles.ite (fun h => (Settles.pure _).imp fun x => ?_) (fun h => (Settles.emit_bind _ fun _ => Keeps.pure _).imp fun x => ?_)
        · rw [floatSyntax_iff] at h
          simp only [id_eq, Literal.decimal.injEq]
          constructor
          · rintro rfl; exact ⟨rfl, h⟩
          · rintro ⟨rfl, _⟩; rfl
        · rw [floatSyntax_iff] at h
          simp only [Literal.decimal.injEq, false_iff]
          rintro ⟨rfl, h'⟩; exact h h'
      | _ => exact (Settles.emit_bind _ fun _ => Keeps.pure _).imp fun n => by simp
    refine (this.map _).imp fun x => ?_
    simp only [Scal.Raw]
    constructor
    · rintro ⟨s, ⟨h1, h2⟩, h3⟩; exact ⟨s, h1, h2, h3⟩
    · rintro ⟨s, h1, h2, h3⟩; exact ⟨s, ⟨h1, h2⟩, h3⟩
  | bool =>
    have : Settles (E := E) (boolScalar.rawDecode ⟨sp, lit⟩) fun b => lit = .bool b := by
      cases lit with
      | bool b => exact (Settles.pure b).imp fun x => by simp [eq_comm]
      | _ => exact (Settles.emit_bind _ fun _ => Keeps.pure _).imp fun n => by simp
    exact (this.map _).imp fun x => by simp only [Scal.Raw]
  | text =>
    have : Settles (E := E) (textRaw ⟨sp, lit⟩) fun s => lit = .string s := by
      cases lit with
      | string s => exact (Settles.pure s).imp fun x => by simp [eq_comm]
      | _ => exact (Settles.emit_bind _ fun _ => Keeps.pure _).imp fun n => by simp
    exact (this.map _).imp fun x => by simp only [Scal.Raw]
  | choice rt vs =>
    cases lit with
    | string s =>
      simp only [Scal.scalar, enumScalar, Scalar.provided]
      cases hv : vs.find? (fun w => s = w.name) with
      | some w =>
        refine (Settles.pure _).imp fun x => ?_
        constructor
        · rintro rfl; exact ⟨s, w, rfl, hv, rfl⟩
        · rintro ⟨s', w', e, h1, h2⟩
          simp only [Literal.string.injEq] at e
          subst e
          rw [hv] at h1
          simp only [Option.some.injEq] at h1
          rw [h2, h1]
      | none =>
        refine (Settles.fail _).imp fun x => ?_
        simp only [false_iff]
        rintro ⟨s', w', e, h1, h2⟩
        simp only [Literal.string.injEq] at e
        subst e
        rw [hv] at h1
        simp at h1
    | _ => exact (Settles.fail _).imp fun x => by simp [Scal.Raw]
  | str _ => simp [Scal.mode] at h
  | bytes => simp [Scal.mode] at h

theorem Scal.scalar_decode (ptr : Nat) (t : Scal) (h : t.mode = .normal) (v : Value S) :
    (t.scalar (E := E) ptr).decode v = ((t.scalar ptr).typeCheck v.typeName >>= fun _ => (t.scalar ptr).rawDecode v.literal) := by
  cases t with
  | str _ => simp [Scal.mode] at h
  | bytes => simp [Scal.mode] at h
  | choice rt vs => rfl
  | _ =>
    simp only [Scal.scalar, asField, intScalar, floatScalar, boolScalar, stringScalar, Scalar.provided, bind_assoc]

theorem bytes_settles (v : Value S) :
    Settles (E := E) (decodeBytes v) fun b => ∃ s, v.literal.value = .string s ∧
      match v.typeName with
      | none => b = utf8 s
      | some tn => tn.value = .builtin .base64 ∧ Externals.b64 (utf8 s) = .ok b := by
  obtain ⟨tn, sp, lit⟩ := v
  unfold decodeBytes
  cases tn with
  | none =>
    cases lit with
    | string s => exact (Settles.pure _).imp fun x => by simp
    | _ => exact (Settles.emit_bind _ fun _ => Keeps.pure _).imp fun n => by simp
  | some tn =>
    obtain ⟨tsp, tn⟩ := tn
    have other : tn ≠ .builtin .base64 → Settles (E := E) (S := S)
        (D.emit (.typeName tsp (some tn) (ExpectedType.optional (.builtin .base64)) "bytes".toList) >>= fun _ => pure ([] : List UInt8))
        fun b => ∃ s, lit = .string s ∧ tn = .builtin .base64 ∧ Externals.b64 (utf8 s) = .ok b := fun h =>
      (Settles.emit_bind _ fun _ => Keeps.pure _).imp fun n => by simp [h]
    cases tn with
    | custom n => exact other (by simp)
    | builtin t =>
      by_cases ht : t = .base64
      · subst ht
        cases lit with
        | string s =>
          simp only [TypeName.asBuiltin]
          cases hb : Externals.b64 (utf8 s) with
          | ok b =>
            refine (Settles.pure b).imp fun x => ?_
            simp [hb, eq_comm]
          | error m => exact (Settles.emit_bind _ fun _ => Keeps.pure _).imp fun n => by simp [hb]
        | _ => exact (Settles.emit_bind _ fun _ => Keeps.pure _).imp fun n => by simp
      · have := other (by simpa using ht)
        cases t with
        | base64 => simp at ht
        | _ => exact this

theorem strCheck_settles (ty : Option (Spanned TypeName S)) :
    Settles (E := E) (strTypeCheck ty) fun _ => ty = none := by
  unfold strTypeCheck
  cases ty with
  | none => exact (Settles.pure ()).imp fun _ => by simp
  | some tn => exact (Settles.emit _).imp fun _ => by simp

theorem liftConv_settles {α : Type} (x : Spanned α S) (r : Except Str (FVal Leaf)) :
    Settles (E := E) (liftConv x r) fun v => r = .ok v := by
  cases r with
  | ok v => exact (Settles.pure v).imp fun x => by simp [eq_comm]
  | error m => exact (Settles.fail _).imp fun x => by simp

/-- A value, read for a field. -/
theorem value_settles (ptr : Nat) (t : Scal) (option : Bool) (v : Value S) :
    Settles (E := E) (decodeValue t.mode option (t.impls ptr option) v) (t.ReadsIn ptr option v) := by
  have normal : t.mode = .normal → Settles (E := E) (decodeValue t.mode option (t.impls ptr option) v) (t.ReadsIn ptr option v) := by
    intro h
    rw [h]
    show Settles (Scalar.decode (Scal.impls ptr t option).scalar v) _
    cases option with
    | false =>
      show Settles ((t.scalar ptr).decode v) _
      rw [Scal.scalar_decode ptr t h]
      refine ((Scal.check_settles ptr t h _).bind fun _ => Scal.raw_settles ptr t h _).imp fun x => ?_
      simp [Scal.ReadsIn, Scal.reads_iff ptr t h]
    | true =>
      show Settles ((asField ofOption (optionScalar (t.scalar ptr))).decode v) _
      simp only [asField, optionScalar, Scalar.provided]
      obtain ⟨tn, sp, lit⟩ := v
      have raw : ∀ l : Literal, l ≠ .null → Settles (E := E) ((t.scalar ptr).rawDecode (S := S) ⟨sp, l⟩ |>.map some)
          (fun o => ∃ x, t.Raw ptr l x ∧ o = some x) := fun l _ => (Scal.raw_settles ptr t h ⟨sp, l⟩).map some
      have inner : Settles (E := E) (S := S) (match lit with
          | .null => pure none
          | _ => ((t.scalar ptr).rawDecode ⟨sp, lit⟩).map some) fun o => (lit = .null ∧ o = none) ∨ ∃ x, t.Raw ptr lit x ∧ o = some x := by
        cases lit with
        | null => exact (Settles.pure none).imp fun o => by simp [Scal.null_raw]
        | _ => exact (raw _ (by simp)).imp fun o => by simp
      refine (((Scal.check_settles ptr t h tn).bind fun _ => inner).map ofOption).imp fun x => ?_
      simp only [Scal.ReadsIn, if_true, Scal.reads_iff ptr t h]
      constructor
      · rintro ⟨o, ⟨-, h1, h2⟩, rfl⟩
        rcases h2 with ⟨h2, rfl⟩ | ⟨y, h2, rfl⟩
        · exact .inl ⟨h2, h1, rfl⟩
        · exact .inr ⟨y, ⟨h1, h2⟩, rfl⟩
      · rintro (⟨h1, h2, rfl⟩ | ⟨y, ⟨h1, h2⟩, rfl⟩)
        · exact ⟨none, ⟨(), h2, .inl ⟨h1, rfl⟩⟩, rfl⟩
        · exact ⟨some y, ⟨(), h1, .inr ⟨y, h2, rfl⟩⟩, rfl⟩
  cases t with
  | str parse =>
    obtain ⟨tn, sp, lit⟩ := v
    cases option with
    | false =>
      refine ((strCheck_settles tn).bind (R := fun _ x => ∃ s, lit = .string s ∧ parse s = .ok x) fun _ => ?_).imp fun x => ?_
      · cases lit with
        | string s => exact (liftConv_settles _ _).imp fun x => by simp [Scal.impls]
        | _ => exact (Settles.fail _).imp fun x => by simp
      · simp [Scal.ReadsIn, Scal.Reads, Scal.Annotation]
    | true =>
      refine ((strCheck_settles tn).bind
        (R := fun _ x => (lit = .null ∧ x = .none) ∨ ∃ s y, lit = .string s ∧ parse s = .ok y ∧ x = .some y) fun _ => ?_).imp fun x => ?_
      · cases lit with
        | string s => exact ((liftConv_settles _ _).map _).imp fun x => by simp [Scal.impls]
        | null => exact (Settles.pure _).imp fun x => by simp
        | _ => exact (Settles.emit_bind _ fun _ => Keeps.pure _).imp fun x => by simp
      · simp only [Scal.ReadsIn, if_true, Scal.Reads, Scal.Annotation]
        constructor
        · rintro ⟨-, h1, ⟨h2, h3⟩ | ⟨s, y, h2, h3, h4⟩⟩
          · exact .inl ⟨h2, h1, h3⟩
          · exact .inr ⟨y, ⟨h1, s, h2, h3⟩, h4⟩
        · rintro (⟨h2, h1, h3⟩ | ⟨y, ⟨h1, s, h2, h3⟩, h4⟩)
          · exact ⟨(), h1, .inl ⟨h2, h3⟩⟩
          · exact ⟨(), h1, .inr ⟨s, y, h2, h3, h4⟩⟩
  | bytes =>
    cases option with
    | false =>
      refine ((bytes_settles v).bind fun b => liftConv_settles v.literal ((Scal.impls (E := E) (S := S) ptr .bytes false).fromBytes b)).imp fun x => ?_
      simp only [Scal.ReadsIn, Scal.Reads, Scal.Annotation, Scal.impls, true_and, Bool.false_eq_true, if_false, Except.ok.injEq]
      constructor
      · rintro ⟨b, ⟨s, h1, h2⟩, rfl⟩; exact ⟨s, b, h1, rfl, h2⟩
      · rintro ⟨s, b, h1, rfl, h2⟩; exact ⟨b, ⟨s, h1, h2⟩, rfl⟩
    | true =>
      have some' : Settles (E := E) (S := S) (decodeBytes v >>= fun b => pure (.some (.leaf (.bytes b)) : FVal Leaf))
          fun x => ∃ y, Scal.bytes.Reads ptr v y ∧ x = .some y := by
        refine ((bytes_settles v).map _).imp fun x => ?_
        simp only [Scal.Reads, Scal.Annotation, true_and]
        constructor
        · rintro ⟨b, ⟨s, h1, h2⟩, rfl⟩; exact ⟨_, ⟨s, b, h1, rfl, h2⟩, rfl⟩
        · rintro ⟨y, ⟨s, b, h1, rfl, h2⟩, rfl⟩; exact ⟨b, ⟨s, h1, h2⟩, rfl⟩
      obtain ⟨tn, sp, lit⟩ := v
      cases lit with
      | null =>
        refine (Settles.pure _).imp fun x => ?_
        simp [Scal.ReadsIn, Scal.Annotation, Scal.Reads]
      | _ => exact some'.imp fun x => by simp [Scal.ReadsIn]
  | _ => exact normal rfl

/-! ### Arguments -/

/-- A field for an argument. -/
def ArgD.arg (ptr : Nat) (a : ArgD) : Arg E S Leaf := ⟨a.field, a.option, a.ty.mode, a.default, a.ty.impls ptr a.option⟩
/-- A field for a property. -/
def PropD.prop (ptr : Nat) (p : PropD) : Prop' E S Leaf :=
  ⟨p.field, p.name, p.option, p.ty.mode, false, p.default, p.ty.impls ptr p.option⟩

theorem arg_settles (ptr : Nat) (node : SpannedNode S) (a : ArgD) (vs : List (Value S)) :
    Settles (E := E) (decodeArg node (a.arg ptr) vs) fun r => a.Reads ptr vs[0]? r.1 ∧ r.2 = vs.tail := by
  unfold decodeArg
  cases vs with
  | cons v vs =>
    refine ((value_settles ptr a.ty a.option v).map fun x => (x, vs)).imp ?_
    rintro ⟨x, l⟩
    simp only [Prod.mk.injEq, List.getElem?_cons_zero, List.tail_cons]
    constructor
    · rintro ⟨y, h1, rfl, rfl⟩; exact ⟨h1, rfl⟩
    · rintro ⟨h1, rfl⟩; exact ⟨x, h1, rfl, rfl⟩
  | nil =>
    simp only [ArgD.Reads, ArgD.arg, List.getElem?_nil, List.tail_nil]
    cases hd : a.default with
    | some d =>
      refine (Settles.pure _).imp ?_
      rintro ⟨x, l⟩
      simp [absent, eq_comm]
    | none =>
      cases ho : a.option with
      | true =>
        refine (Settles.pure _).imp ?_
        rintro ⟨x, l⟩
        simp [absent, eq_comm]
      | false =>
        refine (Settles.fail _).imp ?_
        rintro ⟨x, l⟩
        simp [absent]

theorem argList_settles (ptr : Nat) (node : SpannedNode S) (args : List ArgD) (vs : List (Value S)) :
    Settles (E := E) (decodeArgList node (args.map (ArgD.arg ptr)) vs) fun r =>
      Fills (fun a : ArgD => a.field) (fun i a x => a.Reads ptr vs[i]? x) args r.1 ∧ r.2 = vs.drop args.length := by
  induction args generalizing vs with
  | nil =>
    refine (Settles.pure _).imp ?_
    rintro ⟨e, l⟩
    rw [Fills.nil_iff]
    simp
  | cons a args ih =>
    refine ((arg_settles ptr node a vs).bind fun r => (ih r.2).map fun t => ((a.field, r.1) :: t.1, t.2)).imp ?_
    rintro ⟨e, l⟩
    rw [Fills.cons_iff]
    have htl : ∀ i : Nat, vs.tail[i]? = vs[i + 1]? := fun i => by simp
    constructor
    · rintro ⟨⟨x, vs'⟩, ⟨h1, h2⟩, ⟨e', l'⟩, ⟨h3, h4⟩, h5⟩
      simp only [Prod.mk.injEq] at h1 h2 h3 h4 h5
      subst h2
      simp only [htl] at h3
      exact ⟨⟨x, e', h5.1, h1, h3⟩, by simpa [h4] using h5.2⟩
    · rintro ⟨⟨x, e', h1, h2, h3⟩, h4⟩
      refine ⟨(x, vs.tail), ⟨h2, rfl⟩, (e', l), ⟨?_, ?_⟩, ?_⟩
      · simp only [htl]; exact h3
      · simpa using h4
      · dsimp only at h1; rw [h1]

theorem args_settle (ptr : Nat) (args : List ArgD) (rest : Option RestD) (props : List PropD) (restProps : Option RestD)
    (kids : List Kid) (restKids : RestKids) (node : SpannedNode S) :
    Settles (E := E) (decodeArgs (Content.struct ptr (.mk args rest props restProps kids restKids)) node) fun env => ∃ e,
      Fills (fun a : ArgD => a.field) (fun i a x => a.Reads ptr node.value.arguments[i]? x) args e ∧
      match rest with
      | none => env = e ∧ node.value.arguments.length ≤ args.length
      | some r => ∃ xs, env = e ++ [(r.field, .list xs)] ∧ Each2 (r.ty.Reads ptr) (node.value.arguments.drop args.length) xs := by
  unfold decodeArgs
  have ha : (Content.struct (E := E) (S := S) ptr (.mk args rest props restProps kids restKids)).arguments = args.map (ArgD.arg ptr) := by
    simp only [Content.struct]
    rfl
  rw [ha]
  refine (Settles.bind (argList_settles ptr node args node.value.arguments) (R := fun r env => match rest with
      | none => env = r.1 ∧ r.2 = []
      | some ra => ∃ xs, env = r.1 ++ [(ra.field, .list xs)] ∧ Each2 (ra.ty.Reads ptr) r.2 xs) ?_).imp fun env => ?_
  · rintro ⟨e, l⟩
    cases rest with
    | none =>
      simp only [Content.struct, Option.map_none]
      cases l with
      | nil => exact (Settles.pure _).imp fun env => by simp
      | cons v l => exact (Settles.fail _).imp fun env => by simp
    | some ra =>
      simp only [Content.struct, Option.map_some]
      refine ((Settles.collect (R := ra.ty.Reads ptr) (fun v => (value_settles ptr ra.ty false v).imp fun x => by
        simp [Scal.ReadsIn]) l).map _).imp fun env => ?_
      constructor
      · rintro ⟨xs, h1, h2⟩; exact ⟨xs, h2, h1⟩
      · rintro ⟨xs, h1, h2⟩; exact ⟨xs, h2, h1⟩
  constructor
  · rintro ⟨⟨e, l⟩, ⟨h1, h2⟩, h3⟩
    dsimp only at h1 h2 h3
    subst h2
    refine ⟨e, h1, ?_⟩
    cases rest with
    | none => simpa using h3
    | some ra => exact h3
  · rintro ⟨e, h1, h2⟩
    refine ⟨(e, node.value.arguments.drop args.length), ⟨h1, rfl⟩, ?_⟩
    cases rest with
    | none => simpa using h2
    | some ra => exact h2

/-! ### Properties -/

theorem kidsChildren_eq (ptr : Nat) (kids : List Kid) : kidsChildren (E := E) (S := S) ptr kids = kids.map (Kid.child ptr) := by
  induction kids with
  | nil => simp only [kidsChildren, List.map_nil]
  | cons k kids ih => simp only [kidsChildren, List.map_cons, ih]

theorem casesVariants_eq (ptr : Nat) (l : List Case) : casesVariants (E := E) (S := S) ptr l = l.map (Case.variant ptr) := by
  induction l with
  | nil => simp only [casesVariants, List.map_nil]
  | cons k l ih => simp only [casesVariants, List.map_cons, ih]

theorem propArm_settles (ptr : Nat) (d : PropD) (st : PropState Leaf) (q : Spanned Str S × Value S) :
    Settles (E := E) (propArm (d.prop ptr) st q.1 q.2) fun st' =>
      ∃ x, d.ty.ReadsIn ptr d.option q.2 x ∧ st' = if d.option then ⟨x, true⟩ else ⟨.some x, st.seen⟩ := by
  unfold propArm
  rw [if_neg (by simp [PropD.prop])]
  exact (value_settles ptr d.ty d.option q.2).map fun x => (if d.option then ⟨x, true⟩ else ⟨.some x, st.seen⟩ : PropState Leaf)

/-- The value of a property field after the loop. -/
def PropD.Ends (d : PropD) (st : PropState Leaf) (x : FVal Leaf) : Prop :=
  if d.option then
    (match d.default with
      | some y => x = if st.seen then st.fld else y
      | none => x = st.fld)
  else
    match st.fld with
    | .some y => x = y
    | _ => d.default = some x

theorem propEnd_settles (ptr : Nat) (node : SpannedNode S) (d : PropD) (st : PropState Leaf) :
    Settles (E := E) ((d.prop ptr).finish node st) (d.Ends st) := by
  unfold Prop'.finish
  rw [if_neg (by simp [PropD.prop])]
  simp only [PropD.prop]
  cases ho : d.option with
  | true => cases hd : d.default <;> exact (Settles.pure _).imp fun x => by simp [PropD.Ends, ho, hd]
  | false =>
    cases hd : d.default with
    | some y =>
      cases hf : st.fld with
      | some x => exact (Settles.pure _).imp fun x => by simp [PropD.Ends, ho, hf]
      | _ => exact (Settles.pure _).imp fun x => by simp [PropD.Ends, ho, hd, hf, eq_comm]
    | none =>
      cases hf : st.fld with
      | some x => exact (Settles.pure _).imp fun x => by simp [PropD.Ends, ho, hf]
      | _ => exact (Settles.fail _).imp fun x => by simp [PropD.Ends, ho, hd, hf]

theorem each2_length {α β : Type} {R : α → β → Prop} {l : List α} {l' : List β} (h : Each2 R l l') : l.length = l'.length := by
  induction h with
  | nil => rfl
  | cons _ _ ih => simp [ih]

/-- What happens to a property field is what its declaration says. -/
theorem prop_reads (ptr : Nat) (d : PropD) (mine : List (Spanned Str S × Value S)) (x : FVal Leaf) :
    (∃ st, Steps (fun (q : Spanned Str S × Value S) (st st' : PropState Leaf) =>
        ∃ x, d.ty.ReadsIn ptr d.option q.2 x ∧ st' = if d.option then ⟨x, true⟩ else ⟨.some x, st.seen⟩) mine ⟨.none, false⟩ st ∧
      d.Ends st x) ↔ d.Reads ptr mine x := by
  have steps : ∀ (mine : List (Spanned Str S × Value S)) (st0 st : PropState Leaf),
      Steps (fun (q : Spanned Str S × Value S) (st st' : PropState Leaf) =>
        ∃ x, d.ty.ReadsIn ptr d.option q.2 x ∧ st' = if d.option then ⟨x, true⟩ else ⟨.some x, st.seen⟩) mine st0 st ↔
      ∃ ys, Each2 (fun q y => d.ty.ReadsIn ptr d.option q.2 y) mine ys ∧
        st = match ys.getLast? with
          | some y => if d.option then ⟨y, true⟩ else ⟨.some y, st0.seen⟩
          | none => st0 := by
    intro mine
    induction mine with
    | nil =>
      intro st0 st
      constructor
      · intro h; cases h; exact ⟨[], .nil, rfl⟩
      · rintro ⟨ys, h, h'⟩; cases h; rw [h']; exact .nil _
    | cons q mine ih =>
      intro st0 st
      have hsn : ∀ y, (if d.option then ⟨y, true⟩ else ⟨.some y, st0.seen⟩ : PropState Leaf) =
          ⟨if d.option then y else .some y, if d.option then true else st0.seen⟩ := by
        intro y; split <;> rfl
      constructor
      · intro h
        cases h with
        | cons h1 h2 =>
          obtain ⟨y, hy, rfl⟩ := h1
          obtain ⟨ys, h3, h4⟩ := (ih _ _).1 h2
          refine ⟨y :: ys, .cons hy h3, ?_⟩
          rw [h4, List.getLast?_cons]
          cases ys.getLast? with
          | none => rfl
          | some z =>
            dsimp only [Option.getD_some]
            cases d.option <;> rfl
      · rintro ⟨ys, h, h'⟩
        cases h with
        | @cons _ y _ ys h1 h2 =>
          refine .cons ⟨y, h1, rfl⟩ ((ih _ _).2 ⟨ys, h2, ?_⟩)
          rw [h', List.getLast?_cons]
          cases ys.getLast? with
          | none => rfl
          | some z =>
            dsimp only [Option.getD_some]
            cases d.option <;> rfl
  unfold PropD.Reads
  constructor
  · rintro ⟨st, h1, h2⟩
    obtain ⟨ys, h3, h4⟩ := (steps _ _ _).1 h1
    refine ⟨ys, h3, ?_⟩
    unfold PropD.Ends at h2
    cases hl : ys.getLast? with
    | none =>
      rw [hl] at h4
      subst h4
      unfold absent
      cases ho : d.option <;> rw [ho] at h2 <;> cases hd : d.default <;> rw [hd] at h2 <;> simp_all
    | some y =>
      rw [hl] at h4
      subst h4
      cases ho : d.option <;> rw [ho] at h2 <;> cases hd : d.default <;> rw [hd] at h2 <;> simp_all
  · rintro ⟨ys, h3, h4⟩
    refine ⟨_, (steps _ _ _).2 ⟨ys, h3, rfl⟩, ?_⟩
    unfold PropD.Ends
    cases hl : ys.getLast? with
    | none =>
      rw [hl] at h4
      unfold absent at h4
      cases ho : d.option <;> rw [ho] at h4 <;> cases hd : d.default <;> rw [hd] at h4 <;> simp_all
    | some y =>
      rw [hl] at h4
      cases ho : d.option <;> cases hd : d.default <;> simp_all

theorem findIdx_name {β : Type} {l : List β} {nm : β → Str} (hnd : (l.map nm).Nodup) {i : Nat} {b : β} (hb : l[i]? = some b) (n : Str) :
    l.findIdx? (fun p => decide (n = nm p)) = some i ↔ n = nm b := by
  rw [List.findIdx?_eq_some_iff_getElem]
  obtain ⟨hi, rfl⟩ := List.getElem?_eq_some_iff.1 hb
  constructor
  · rintro ⟨_, h, -⟩; simpa using h
  · rintro rfl
    refine ⟨hi, by simp, fun j hj h => ?_⟩
    simp only [decide_eq_true_eq] at h
    have := (List.getElem_inj (xs := l.map nm) (i := i) (j := j) (h₀ := by simpa using hi) (h₁ := by simp; omega) hnd).1 (by simpa using h)
    omega

theorem findIdx_noname {β : Type} {l : List β} {nm : β → Str} (n : Str) :
    l.findIdx? (fun p => decide (n = nm p)) = none ↔ n ∉ l.map nm := by
  rw [List.findIdx?_eq_none_iff]
  simp only [decide_eq_false_iff_not, List.mem_map, not_exists, not_and]
  exact ⟨fun h ch hch e => h ch hch e.symm, fun h ch hch e => h ch hch e.symm⟩

theorem props_settle (ptr : Nat) (args : List ArgD) (rest : Option RestD) (props : List PropD) (restProps : Option RestD)
    (kids : List Kid) (restKids : RestKids) (hnd : (props.map (·.name)).Nodup) (node : SpannedNode S) :
    Settles (E := E) (decodeProps (Content.struct ptr (.mk args rest props restProps kids restKids)) node) fun env => ∃ e,
      Fills (fun p : PropD => p.field) (fun _ p x => p.Reads ptr (node.value.properties.filter fun q => q.1.value = p.name) x) props e ∧
      match restProps with
      | none => env = e ∧ ∀ q ∈ node.value.properties, q.1.value ∈ props.map (·.name)
      | some r => ∃ xs, env = e ++ [(r.field, .pairs xs)] ∧
          Each2 (fun q x => x.1 = .leaf (.text q.1.value) ∧ r.ty.Reads ptr q.2 x.2)
            (node.value.properties.filter fun q => q.1.value ∉ props.map (·.name)) xs := by
  generalize hs : Content.struct (E := E) (S := S) ptr (.mk args rest props restProps kids restKids) = s
  have hprops : s.properties = props.map (PropD.prop ptr) := by
    rw [← hs]; simp only [Content.struct]; rfl
  have hvar : s.varProps = restProps.map fun r => ⟨r.field, r.ty.mode, r.ty.impls ptr false⟩ := by
    rw [← hs]; simp only [Content.struct]
  have get : ∀ (i : Nat) (p : Prop' E S Leaf), s.properties[i]? = some p → ∃ d, props[i]? = some d ∧ p = d.prop ptr := by
    intro i p hp
    rw [hprops, List.getElem?_map, Option.map_eq_some_iff] at hp
    obtain ⟨d, h1, h2⟩ := hp
    exact ⟨d, h1, h2.symm⟩
  have hn : s.PropNames (fun p n => decide (n = p.name)) := by
    intro p hp
    obtain ⟨i, hi⟩ := List.getElem?_of_mem hp
    obtain ⟨d, -, rfl⟩ := get i p hi
    rw [if_neg (by simp [PropD.prop])]
    intro n; rfl
  have hnm : s.properties.map (·.name) = props.map (·.name) := by
    rw [hprops, List.map_map]; rfl
  refine (decodeProps_settles hn (node := node)
    (Eff := fun i q st st' => ∃ d, props[i]? = some d ∧ ∃ x, d.ty.ReadsIn ptr d.option q.2 x ∧
      st' = if d.option then ⟨x, true⟩ else ⟨.some x, st.seen⟩)
    (RV := fun q y => ∃ r, restProps = some r ∧ y.1 = .leaf (.text q.1.value) ∧ r.ty.Reads ptr q.2 y.2)
    (F := fun i st x => ∃ d, props[i]? = some d ∧ d.Ends st x) ?_ ?_ ?_).imp fun env => ?_
  · intro i p hp st q
    obtain ⟨d, hd, rfl⟩ := get i p hp
    exact (propArm_settles ptr d st q).imp fun st' => by simp [hd]
  · intro vp hvp q
    rw [hvar, Option.map_eq_some_iff] at hvp
    obtain ⟨r, hr, rfl⟩ := hvp
    dsimp only
    refine ((liftConv_settles q.1 _).bind fun k => (value_settles ptr r.ty false q.2).map fun v => (k, v)).imp ?_
    rintro ⟨k, v⟩
    simp only [Scal.impls, Except.ok.injEq, Prod.mk.injEq, Scal.ReadsIn, Bool.false_eq_true, if_false, hr, Option.some.injEq]
    constructor
    · rintro ⟨k', rfl, v', h, rfl, rfl⟩; exact ⟨r, rfl, rfl, h⟩
    · rintro ⟨_, rfl, rfl, h⟩; exact ⟨_, rfl, v, h, rfl, rfl⟩
  · intro i p st hp
    obtain ⟨d, hd, rfl⟩ := get i p hp
    exact (propEnd_settles ptr node d st).imp fun x => by simp [hd]
  · have hfor : ∀ (i : Nat) d, props[i]? = some d →
        s.propsFor (fun p n => decide (n = p.name)) node (some i) = node.value.properties.filter fun q => q.1.value = d.name := by
      intro i d hd
      unfold Struct.propsFor Struct.propField
      congr 1
      funext q
      rw [decide_eq_decide]
      exact findIdx_name (nm := fun p : Prop' E S Leaf => p.name) (by rw [hnm]; exact hnd) (b := d.prop ptr)
        (by rw [hprops, List.getElem?_map, hd]; rfl) _
    have hnone : s.propsFor (fun p n => decide (n = p.name)) node none =
        node.value.properties.filter fun q => q.1.value ∉ props.map (·.name) := by
      unfold Struct.propsFor Struct.propField
      congr 1
      funext q
      rw [decide_eq_decide, ← hnm]
      exact findIdx_noname (nm := fun p : Prop' E S Leaf => p.name) _
    have hfills : ∀ e : Env Leaf, Fills (fun p : Prop' E S Leaf => p.field)
        (fun i p x => ∃ st, Steps (fun (q : Spanned Str S × Value S) (st st' : PropState Leaf) =>
          ∃ d, props[i]? = some d ∧ ∃ x, d.ty.ReadsIn ptr d.option q.2 x ∧
            st' = if d.option then ⟨x, true⟩ else ⟨.some x, st.seen⟩)
          (s.propsFor (fun p n => decide (n = p.name)) node (some i)) p.init st ∧ ∃ d, props[i]? = some d ∧ d.Ends st x) s.properties e ↔
        Fills (fun p : PropD => p.field) (fun _ p x => p.Reads ptr (node.value.properties.filter fun q => q.1.value = p.name) x) props e := by
      intro e
      unfold Fills
      refine and_congr (by rw [hprops, List.map_map]; rfl) ?_
      have pt : ∀ (i : Nat) d x, props[i]? = some d → ((∃ st, Steps (fun (q : Spanned Str S × Value S) (st st' : PropState Leaf) =>
          ∃ d, props[i]? = some d ∧ ∃ x, d.ty.ReadsIn ptr d.option q.2 x ∧
            st' = if d.option then ⟨x, true⟩ else ⟨.some x, st.seen⟩)
          (s.propsFor (fun p n => decide (n = p.name)) node (some i)) (d.prop (E := E) (S := S) ptr).init st ∧ ∃ d, props[i]? = some d ∧ d.Ends st x) ↔
          d.Reads ptr (node.value.properties.filter fun q => q.1.value = d.name) x) := by
        intro i d x hd
        rw [hfor i d hd, ← prop_reads ptr d]
        simp only [hd, Option.some.injEq, exists_eq_left']
        rfl
      constructor
      · intro h i d y hd hy
        exact (pt i d y.2 hd).1 (h i (d.prop ptr) y (by rw [hprops, List.getElem?_map, hd]; rfl) hy)
      · intro h i p y hp hy
        obtain ⟨d, hd, rfl⟩ := get i p hp
        exact (pt i d y.2 hd).2 (h i d y hd hy)
    simp only [hfills, hnone]
    refine exists_congr fun e => and_congr Iff.rfl ?_
    rw [hvar]
    cases restProps with
    | none => simp
    | some r => simp

/-! ### Children -/

theorem flag_settles (n : SpannedNode S) : Settles (E := E) (checkFlagNode n) fun _ => Bare n := by
  refine ⟨Keeps.checkFlagNode n, fun c => by rw [checkFlagNode_eq]; nofun, ?_, ?_⟩
  · intro c c' v h he
    rw [checkFlagNode_eq] at h
    simp only [Out.ok.injEq] at h
    have : flagErrors n = [] := by
      rw [← h.2] at he
      simpa [Ctx.emitAll] using he
    refine ⟨by rw [← h.2, this, Ctx.emitAll_nil], ?_⟩
    simpa [flagErrors, Bare, and_assoc] using this
  · intro v h c
    rw [checkFlagNode_eq]
    have : flagErrors n = [] := by simpa [flagErrors, Bare, and_assoc] using h
    rw [this, Ctx.emitAll_nil]

/-- What is inside a field for children settles. -/
def Inner.Good (E S : Type) (ptr : Nat) (i : Inner) : Prop :=
  ∀ n : SpannedNode S, Settles (E := E) (i.decoder ptr n) (i.Reads ptr n)

/-- The same for a field. -/
def Kid.Good (E S : Type) (ptr : Nat) : Kid → Prop
  | .flag _ => True
  | .one _ i | .opt _ i | .orElse _ _ i | .many _ _ i => i.Good E S ptr

/-- The same for the field for all other children. -/
def RestKids.Good (E S : Type) (ptr : Nat) : RestKids → Prop
  | .none => True
  | .some _ i => i.Good E S ptr

/-- What one node does to the variable of a field. -/
def Kid.Eff (ptr : Nat) (k : Kid) (n : SpannedNode S) (x y : FVal Leaf) : Prop :=
  match k with
  | .flag _ => Bare n ∧ x ≠ .bool true ∧ y = .bool true
  | .one _ i | .opt _ i | .orElse _ _ i => x.isSome = false ∧ ∃ v, i.Reads ptr n v ∧ y = .some v
  | .many _ _ i => ∃ v, i.Reads ptr n v ∧ y = x.push v

theorem normal_settles {ch : Child E S Leaf} (hm : ch.mode = .normal) {R : SpannedNode S → FVal Leaf → Prop}
    (h : ∀ n, Settles (ch.decoder n) (R n)) (x : FVal Leaf) (n : SpannedNode S) :
    Settles (childEffect ch x n) fun y => x.isSome = false ∧ ∃ v, R n v ∧ y = .some v := by
  rw [childEffect, if_neg (by simp [hm])]
  unfold childArm
  simp only [hm]
  refine Settles.ite (fun hx => (Settles.fail _).imp fun y => ?_) (fun hx => ((h n).map _).imp fun y => ?_)
  · simp [hx]
  · simp [hx]

theorem kidEff_settles (ptr : Nat) (k : Kid) (hg : k.Good E S ptr) (x : FVal Leaf) (n : SpannedNode S) :
    Settles (E := E) (childEffect (k.child ptr) x n) (k.Eff ptr n x) := by
  cases k with
  | flag f =>
    rw [childEffect, if_neg (by simp only [Kid.child]; simp)]
    simp only [Kid.child, childArm]
    refine ((flag_settles n).bind (R := fun _ y => x ≠ .bool true ∧ y = .bool true) fun _ => ?_).imp fun y => ?_
    · split
      · exact (Settles.emit_bind _ fun _ => Keeps.pure _).imp fun y => by simp
      · exact (Settles.pure _).imp fun y => by simp_all
    · simp [Kid.Eff]
  | one f i =>
    have := normal_settles (ch := (Kid.one f i).child ptr) (by simp only [Kid.child]) (R := i.Reads ptr) (by
      simp only [Kid.child]; exact hg) x n
    exact this
  | opt f i =>
    have := normal_settles (ch := (Kid.opt f i).child ptr) (by simp only [Kid.child]) (R := i.Reads ptr) (by
      simp only [Kid.child]; exact hg) x n
    exact this
  | orElse f d i =>
    have := normal_settles (ch := (Kid.orElse f d i).child ptr) (by simp only [Kid.child]) (R := i.Reads ptr) (by
      simp only [Kid.child]; exact hg) x n
    exact this
  | many f nm i =>
    rw [childEffect, if_neg (by simp only [Kid.child]; simp)]
    simp only [Kid.child, childArm]
    exact (hg n).map fun v => x.push v

/-- The value of a field for children after the loop. -/
def Kid.Ends (k : Kid) (fld x : FVal Leaf) : Prop :=
  match k with
  | .flag _ | .opt _ _ | .many _ _ _ => x = fld
  | .one _ _ => fld = .some x
  | .orElse _ d _ =>
    match fld with
    | .some y => x = y
    | _ => x = d

theorem kidEnd_settles (ptr : Nat) (sp : Option S) (k : Kid) (fld : FVal Leaf) :
    Settles (E := E) ((k.child ptr).finish sp fld) (k.Ends fld) := by
  cases k with
  | flag f => simp only [Kid.child, Child.finish]; exact Settles.pure _
  | opt f i => simp only [Kid.child, Child.finish]; exact Settles.pure _
  | many f nm i =>
    simp only [Kid.child, Child.finish]
    cases fld with
    | list l => cases l <;> exact Settles.pure _
    | _ => exact Settles.pure _
  | one f i =>
    simp only [Kid.child, Child.finish]
    cases fld with
    | some y => exact (Settles.pure _).imp fun x => by simp [Kid.Ends, eq_comm]
    | _ => exact (Settles.fail _).imp fun x => by simp [Kid.Ends]
  | orElse f d i =>
    simp only [Kid.child, Child.finish]
    cases fld with
    | some y => exact Settles.pure _
    | _ => exact Settles.pure _

/-- The variable of a field for children before the loop. -/
def Kid.start : Kid → FVal Leaf
  | .flag _ => .bool false
  | .one _ _ | .opt _ _ | .orElse _ _ _ => .none
  | .many _ _ _ => .list []

theorem kid_init (ptr : Nat) (k : Kid) : (k.child (E := E) (S := S) ptr).init = k.start := by
  cases k <;> simp only [Kid.child, Child.init, Kid.start]

theorem normal_iff {R : SpannedNode S → FVal Leaf → Prop} (mine : List (SpannedNode S)) (fld : FVal Leaf) :
    Steps (fun (n : SpannedNode S) (x y : FVal Leaf) => x.isSome = false ∧ ∃ v, R n v ∧ y = .some v) mine .none fld ↔
      (mine = [] ∧ fld = .none) ∨ ∃ n v, mine = [n] ∧ R n v ∧ fld = .some v := by
  constructor
  · intro h
    cases h with
    | nil => exact .inl ⟨rfl, rfl⟩
    | cons h1 h2 =>
      obtain ⟨-, v, h3, rfl⟩ := h1
      cases h2 with
      | nil => exact .inr ⟨_, v, rfl, h3, rfl⟩
      | cons h4 _ => simp [FVal.isSome] at h4
  · rintro (⟨rfl, rfl⟩ | ⟨n, v, rfl, h, rfl⟩)
    · exact .nil _
    · exact .cons ⟨rfl, v, h, rfl⟩ (.nil _)

/-- What happens to a field for children is what its declaration says. -/
theorem kid_reads (ptr : Nat) (k : Kid) (mine : List (SpannedNode S)) (x : FVal Leaf) :
    (∃ fld, Steps (k.Eff ptr) mine k.start fld ∧ k.Ends fld x) ↔ k.Reads ptr mine x := by
  cases k with
  | flag f =>
    simp only [Kid.start, Kid.Ends, Kid.Reads]
    constructor
    · rintro ⟨fld, h, rfl⟩
      cases h with
      | nil => simp
      | cons h1 h2 =>
        obtain ⟨hb, -, rfl⟩ := h1
        cases h2 with
        | nil => simpa using hb
        | cons h3 _ => exact absurd rfl h3.2.1
    · rintro ⟨rfl, hl, hb⟩
      cases mine with
      | nil => exact ⟨_, .nil _, rfl⟩
      | cons m mine =>
        cases mine with
        | nil => exact ⟨.bool true, .cons ⟨hb m (by simp), by simp, rfl⟩ (.nil _), rfl⟩
        | cons _ _ => simp at hl
  | one f i =>
    have := fun fld => normal_iff (R := i.Reads ptr) mine fld
    simp only [Kid.start, Kid.Ends, Kid.Reads]
    constructor
    · rintro ⟨fld, h, rfl⟩
      rcases (this _).1 h with ⟨-, h⟩ | ⟨n, v, h1, h2, h3⟩
      · simp at h
      · simp only [FVal.some.injEq] at h3
        exact ⟨n, h1, by rw [h3]; exact h2⟩
    · rintro ⟨m, h1, h2⟩
      exact ⟨.some x, (this _).2 (.inr ⟨m, x, h1, h2, rfl⟩), rfl⟩
  | opt f i =>
    have := fun fld => normal_iff (R := i.Reads ptr) mine fld
    simp only [Kid.start, Kid.Ends, Kid.Reads]
    constructor
    · rintro ⟨fld, h, rfl⟩
      exact (this _).1 h
    · intro h
      exact ⟨x, (this _).2 h, rfl⟩
  | orElse f d i =>
    have := fun fld => normal_iff (R := i.Reads ptr) mine fld
    simp only [Kid.start, Kid.Ends, Kid.Reads]
    constructor
    · rintro ⟨fld, h, h'⟩
      rcases (this _).1 h with ⟨h1, rfl⟩ | ⟨n, v, h1, h2, rfl⟩
      · exact .inl ⟨h1, h'⟩
      · exact .inr ⟨n, h1, by dsimp only at h'; rw [h']; exact h2⟩
    · rintro (⟨h1, rfl⟩ | ⟨n, h1, h2⟩)
      · exact ⟨.none, (this _).2 (.inl ⟨h1, rfl⟩), rfl⟩
      · exact ⟨.some x, (this _).2 (.inr ⟨n, x, h1, h2, rfl⟩), rfl⟩
  | many f nm i =>
    simp only [Kid.start, Kid.Ends, Kid.Reads]
    have steps : ∀ (mine : List (SpannedNode S)) (xs : List (FVal Leaf)) (fld : FVal Leaf),
        Steps ((Kid.many f nm i).Eff ptr) mine (.list xs) fld ↔ ∃ ys, fld = .list (xs ++ ys) ∧ Each2 (fun m y => i.Reads ptr m y) mine ys := by
      intro mine
      induction mine with
      | nil =>
        intro xs fld
        constructor
        · intro h; cases h; exact ⟨[], by simp, .nil⟩
        · rintro ⟨ys, rfl, h⟩; cases h; rw [List.append_nil]; exact .nil _
      | cons m mine ih =>
        intro xs fld
        constructor
        · intro h
          cases h with
          | cons h1 h2 =>
            obtain ⟨v, h3, rfl⟩ := h1
            obtain ⟨ys, rfl, h4⟩ := (ih _ _).1 h2
            exact ⟨v :: ys, by simp, .cons h3 h4⟩
        · rintro ⟨ys, rfl, h⟩
          cases h with
          | @cons _ v _ ys h1 h2 =>
            exact .cons ⟨v, h1, rfl⟩ ((ih _ _).2 ⟨ys, by simp, h2⟩)
    constructor
    · rintro ⟨fld, h, rfl⟩
      obtain ⟨ys, h1, h2⟩ := (steps _ _ _).1 h
      exact ⟨ys, by simpa using h1, h2⟩
    · rintro ⟨ys, h1, h2⟩
      exact ⟨x, (steps _ _ _).2 ⟨ys, by simpa using h1, h2⟩, rfl⟩

theorem kidsRead_iff (ptr : Nat) (kids : List Kid) (nodes : List (SpannedNode S)) (env : Env Leaf) :
    kidsRead ptr kids nodes env ↔
      ∀ k ∈ kids, ∃ x, (k.field, x) ∈ env ∧ k.Reads ptr (nodes.filter fun m => m.value.nodeName.value = k.name) x := by
  induction kids with
  | nil => simp [kidsRead]
  | cons k kids ih =>
    rw [kidsRead, ih]
    simp

theorem kids_settle (ptr : Nat) (args : List ArgD) (rest : Option RestD) (props : List PropD) (restProps : Option RestD)
    (kids : List Kid) (restKids : RestKids) (hnd : (kids.map Kid.name).Nodup)
    (hg : ∀ k ∈ kids, k.Good E S ptr) (hr : restKids.Good E S ptr) (sp : Option S) (nodes : List (SpannedNode S)) :
    Settles (E := E) (decodeChildren (Content.struct ptr (.mk args rest props restProps kids restKids)) sp nodes) fun env => ∃ e,
      Fills Kid.field (fun _ k x => k.Reads ptr (nodes.filter fun m => m.value.nodeName.value = k.name) x) kids e ∧
      match restKids with
      | .none => env = e ∧ nodes.filter (fun m => m.value.nodeName.value ∉ kids.map Kid.name) = []
      | .some f i => ∃ xs, env = e ++ [(f, .list xs)] ∧
          Each2 (fun m y => i.Reads ptr m y) (nodes.filter fun m => m.value.nodeName.value ∉ kids.map Kid.name) xs := by
  generalize hs : Content.struct (E := E) (S := S) ptr (.mk args rest props restProps kids restKids) = s
  have hkids : s.children = kids.map (Kid.child ptr) := by
    rw [← hs]; simp only [Content.struct, kidsChildren_eq]
  have hvar : s.varChildren = restKids.var ptr := by
    rw [← hs]; simp only [Content.struct]
  have get : ∀ (i : Nat) (p : Child E S Leaf), s.children[i]? = some p → ∃ d, kids[i]? = some d ∧ p = d.child ptr := by
    intro i p hp
    rw [hkids, List.getElem?_map, Option.map_eq_some_iff] at hp
    obtain ⟨d, h1, h2⟩ := hp
    exact ⟨d, h1, h2.symm⟩
  have hn : s.ChildNames (fun p n => decide (n = p.name)) := by
    intro p hp
    obtain ⟨i, hi⟩ := List.getElem?_of_mem hp
    obtain ⟨d, -, rfl⟩ := get i p hi
    rw [if_neg (by cases d <;> simp only [Kid.child] <;> simp)]
    intro n; rfl
  have kname : ∀ k : Kid, (k.child (E := E) (S := S) ptr).name = k.name := by
    intro k; cases k <;> simp only [Kid.child, Kid.name]
  have kfield : ∀ k : Kid, (k.child (E := E) (S := S) ptr).field = k.field := by
    intro k; cases k <;> simp only [Kid.child, Kid.field]
  have hnm : s.children.map (·.name) = kids.map Kid.name := by
    rw [hkids, List.map_map]
    exact List.map_congr_left fun k _ => kname k
  refine (decodeChildren_settles hn (sp := sp) (nodes := nodes)
    (Eff := fun i q st st' => ∃ d, kids[i]? = some d ∧ d.Eff ptr q st st')
    (RV := fun n y => ∃ f i, restKids = .some f i ∧ i.Reads ptr n y)
    (F := fun i st x => ∃ d, kids[i]? = some d ∧ d.Ends st x) ?_ ?_ ?_).imp fun env => ?_
  · intro i p hp st q
    obtain ⟨d, hd, rfl⟩ := get i p hp
    exact (kidEff_settles ptr d (hg d (List.mem_of_getElem? hd)) st q).imp fun st' => by simp [hd]
  · intro vp hvp n
    rw [hvar] at hvp
    cases restKids with
    | none => simp [RestKids.var] at hvp
    | some f i =>
      simp only [RestKids.var, Option.some.injEq] at hvp
      subst hvp
      exact (hr n).imp fun y => by simp
  · intro i p st hp
    obtain ⟨d, hd, rfl⟩ := get i p hp
    exact (kidEnd_settles ptr sp d st).imp fun x => by simp [hd]
  · have hfor : ∀ (i : Nat) d, kids[i]? = some d →
        s.nodesFor (fun p n => decide (n = p.name)) nodes (some i) = nodes.filter fun m => m.value.nodeName.value = d.name := by
      intro i d hd
      unfold Struct.nodesFor Struct.childField
      congr 1
      funext q
      rw [decide_eq_decide, ← kname d]
      exact findIdx_name (nm := fun p : Child E S Leaf => p.name) (by rw [hnm]; exact hnd) (b := d.child ptr)
        (by rw [hkids, List.getElem?_map, hd]; rfl) _
    have hnone : s.nodesFor (fun p n => decide (n = p.name)) nodes none =
        nodes.filter fun m => m.value.nodeName.value ∉ kids.map Kid.name := by
      unfold Struct.nodesFor Struct.childField
      congr 1
      funext q
      rw [decide_eq_decide, ← hnm]
      exact findIdx_noname (nm := fun p : Child E S Leaf => p.name) _
    have hfills : ∀ e : Env Leaf, Fills (fun p : Child E S Leaf => p.field)
        (fun i p x => ∃ st, Steps (fun (q : SpannedNode S) (st st' : FVal Leaf) => ∃ d, kids[i]? = some d ∧ d.Eff ptr q st st')
          (s.nodesFor (fun p n => decide (n = p.name)) nodes (some i)) p.init st ∧ ∃ d, kids[i]? = some d ∧ d.Ends st x) s.children e ↔
        Fills Kid.field (fun _ k x => k.Reads ptr (nodes.filter fun m => m.value.nodeName.value = k.name) x) kids e := by
      intro e
      unfold Fills
      refine and_congr (by
        have : ((fun p : Child E S Leaf => p.field) ∘ Kid.child ptr) = Kid.field := funext kfield
        rw [hkids, List.map_map, this]) ?_
      have pt : ∀ (i : Nat) d x, kids[i]? = some d → ((∃ st, Steps (fun (q : SpannedNode S) (st st' : FVal Leaf) =>
          ∃ d, kids[i]? = some d ∧ d.Eff ptr q st st')
          (s.nodesFor (fun p n => decide (n = p.name)) nodes (some i)) (d.child (E := E) (S := S) ptr).init st ∧
            ∃ d, kids[i]? = some d ∧ d.Ends st x) ↔
          d.Reads ptr (nodes.filter fun m => m.value.nodeName.value = d.name) x) := by
        intro i d x hd
        rw [hfor i d hd, ← kid_reads ptr d, kid_init]
        simp only [hd, Option.some.injEq, exists_eq_left']
      constructor
      · intro h i d y hd hy
        exact (pt i d y.2 hd).1 (h i (d.child ptr) y (by rw [hkids, List.getElem?_map, hd]; rfl) hy)
      · intro h i p y hp hy
        obtain ⟨d, hd, rfl⟩ := get i p hp
        exact (pt i d y.2 hd).2 (h i d y hd hy)
    simp only [hfills, hnone]
    refine exists_congr fun e => and_congr Iff.rfl ?_
    rw [hvar]
    cases restKids with
    | none => simp [RestKids.var]
    | some f i => simp [RestKids.var]

/-! ### Nodes -/

theorem map_split {l : Env Leaf} {a b : List AttrAccess} (h : l.map (·.1) = a ++ b) :
    ∃ l1 l2, l = l1 ++ l2 ∧ l1.map (·.1) = a ∧ l2.map (·.1) = b := by
  obtain ⟨l1, l2, h1, h2, h3⟩ := List.map_eq_append_iff.1 h
  exact ⟨l1, l2, h1, h2, h3⟩

theorem fills_all {β : Type} {fld : β → AttrAccess} {P : β → FVal Leaf → Prop} {l : List β} {e env : Env Leaf}
    (hsub : ∀ y ∈ e, y ∈ env) (hn : (env.map (·.1)).Nodup) (hk : e.map (·.1) = l.map fld) :
    Fills fld (fun _ b x => P b x) l e ↔ ∀ b ∈ l, ∃ x, (fld b, x) ∈ env ∧ P b x := by
  rw [Fills.iff_mem hsub hn hk]
  constructor
  · intro h b hb
    obtain ⟨i, hi⟩ := List.getElem?_of_mem hb
    exact h i b hi
  · intro h i b hb
    exact h b (List.mem_of_getElem? hb)

theorem mem_unique {env : Env Leaf} (hn : (env.map (·.1)).Nodup) {f : AttrAccess} {x x' : FVal Leaf}
    (h : (f, x) ∈ env) (h' : (f, x') ∈ env) : x = x' := by
  have e1 := field_of_mem hn h
  have e2 := field_of_mem hn h'
  rw [← e1, ← e2]

/-- A part of the fields that is for at most one field. -/
theorem one_field {o : Option AttrAccess} {e env : Env Leaf} (hsub : ∀ y ∈ e, y ∈ env) (hn : (env.map (·.1)).Nodup)
    (hk : e.map (·.1) = o.toList) {x : FVal Leaf} {f : AttrAccess} (ho : o = some f) (h : (f, x) ∈ env) : e = [(f, x)] := by
  subst ho
  simp only [Option.toList_some] at hk
  obtain ⟨y, l, rfl, h1, h2⟩ := List.map_eq_cons_iff.1 hk
  rw [List.map_eq_nil_iff] at h2
  subst h2
  obtain ⟨g, z⟩ := y
  dsimp only at h1
  subst h1
  rw [mem_unique hn h (hsub (g, z) (by simp))]

/-- The field for other children, if there is one. -/
def RestKids.fields : RestKids → List AttrAccess
  | .none => []
  | .some f _ => [f]

theorem fields_eq (args : List ArgD) (rest : Option RestD) (props : List PropD) (restProps : Option RestD) (kids : List Kid)
    (restKids : RestKids) : (Content.mk args rest props restProps kids restKids).fields =
      args.map (·.field) ++ rest.toList.map (·.field) ++ props.map (·.field) ++ restProps.toList.map (·.field) ++
        kids.map Kid.field ++ restKids.fields := by
  cases restKids <;> rfl

theorem content_settles (ptr : Nat) (args : List ArgD) (rest : Option RestD) (props : List PropD) (restProps : Option RestD)
    (kids : List Kid) (restKids : RestKids) (hf : (Content.mk args rest props restProps kids restKids).fields.Nodup)
    (hpn : (props.map (·.name)).Nodup) (hkn : (kids.map Kid.name).Nodup)
    (hg : ∀ k ∈ kids, k.Good E S ptr) (hr : restKids.Good E S ptr) (node : SpannedNode S) :
    Settles (E := E) (decodeContent (Content.struct ptr (.mk args rest props restProps kids restKids)) node)
      ((Content.mk args rest props restProps kids restKids).Reads ptr node) := by
  unfold decodeContent
  refine ((args_settle ptr args rest props restProps kids restKids node).bind fun a =>
    (props_settle ptr args rest props restProps kids restKids hpn node).bind fun p =>
    (kids_settle ptr args rest props restProps kids restKids hkn hg hr (some node.span) node.value.childNodes).map fun c =>
      a ++ p ++ c).imp fun env => ?_
  rw [Content.Reads.eq_def]
  dsimp only
  constructor
  · rintro ⟨a, ⟨ea, h1, h2⟩, p, ⟨ep, h3, h4⟩, c, ⟨ec, h5, h6⟩, rfl⟩
    have ka : a.map (·.1) = args.map (·.field) ++ rest.toList.map (·.field) := by
      cases rest with
      | none => simp [h2.1, h1.1]
      | some r => obtain ⟨xs, rfl, -⟩ := h2; simp [h1.1]
    have kp : p.map (·.1) = props.map (·.field) ++ restProps.toList.map (·.field) := by
      cases restProps with
      | none => simp [h4.1, h3.1]
      | some r => obtain ⟨xs, rfl, -⟩ := h4; simp [h3.1]
    have kc : c.map (·.1) = kids.map Kid.field ++ restKids.fields := by
      cases restKids with
      | none => simp [h6.1, h5.1, RestKids.fields]
      | some f i => obtain ⟨xs, rfl, -⟩ := h6; simp [h5.1, RestKids.fields]
    have keys : (a ++ p ++ c).map (·.1) = (Content.mk args rest props restProps kids restKids).fields := by
      simp only [List.map_append, ka, kp, kc, fields_eq, List.append_assoc]
    have hn : ((a ++ p ++ c).map (·.1)).Nodup := by rw [keys]; exact hf
    have sa : ∀ y ∈ ea, y ∈ a ++ p ++ c := by
      intro y hy
      have : y ∈ a := by
        cases rest with
        | none => rw [h2.1]; exact hy
        | some r => obtain ⟨xs, rfl, -⟩ := h2; simp [hy]
      simp [this]
    have sp : ∀ y ∈ ep, y ∈ a ++ p ++ c := by
      intro y hy
      have : y ∈ p := by
        cases restProps with
        | none => rw [h4.1]; exact hy
        | some r => obtain ⟨xs, rfl, -⟩ := h4; simp [hy]
      simp [this]
    have sc : ∀ y ∈ ec, y ∈ a ++ p ++ c := by
      intro y hy
      have : y ∈ c := by
        cases restKids with
        | none => rw [h6.1]; exact hy
        | some f i => obtain ⟨xs, rfl, -⟩ := h6; simp [hy]
      simp [this]
    refine ⟨keys, (Fills.iff_mem sa hn h1.1).1 h1, ?_, (fills_all sp hn h3.1).1 h3, ?_, ?_, ?_⟩
    · cases rest with
      | none => exact h2.2
      | some r => obtain ⟨xs, rfl, h⟩ := h2; exact ⟨xs, by simp, h⟩
    · cases restProps with
      | none => exact h4.2
      | some r => obtain ⟨xs, rfl, h⟩ := h4; exact ⟨xs, by simp, h⟩
    · rw [kidsRead_iff]
      exact (fills_all sc hn h5.1).1 h5
    · cases restKids with
      | none => simpa only [RestKids.Reads] using h6.2
      | some f i =>
        obtain ⟨xs, rfl, h⟩ := h6
        rw [RestKids.Reads]
        exact ⟨xs, by simp, h⟩
  · rintro ⟨keys, h1, h2, h3, h4, h5, h6⟩
    have hn : (env.map (·.1)).Nodup := by rw [keys]; exact hf
    rw [fields_eq] at keys
    obtain ⟨e5, e6, rfl, keys, k6⟩ := map_split keys
    obtain ⟨e4, ec, rfl, keys, k5⟩ := map_split keys
    obtain ⟨e3, rp, rfl, keys, k4⟩ := map_split keys
    obtain ⟨e2, ep, rfl, keys, k3⟩ := map_split keys
    obtain ⟨ea, ra, rfl, k1, k2⟩ := map_split keys
    have fa := (Fills.iff_mem (e := ea) (fld := fun a : ArgD => a.field) (fun y hy => by simp [hy]) hn k1).2 h1
    have fp := (fills_all (e := ep) (fld := fun p : PropD => p.field) (fun y hy => by simp [hy]) hn k3).2 h3
    have fc := (fills_all (e := ec) (fld := Kid.field) (fun y hy => by simp [hy]) hn k5).2 ((kidsRead_iff _ _ _ _).1 h5)
    refine ⟨ea ++ ra, ⟨ea, fa, ?_⟩, ep ++ rp, ⟨ep, fp, ?_⟩, ec ++ e6, ⟨ec, fc, ?_⟩, by simp⟩
    · cases rest with
      | none => simp only [Option.toList_none, List.map_nil, List.map_eq_nil_iff] at k2; rw [k2, List.append_nil]; exact ⟨rfl, h2⟩
      | some r =>
        obtain ⟨xs, hm, h⟩ := h2
        have : ra = [(r.field, .list xs)] := one_field (o := some r.field) (fun y hy => by simp [hy]) hn (by simpa using k2) rfl hm
        exact ⟨xs, by rw [this], h⟩
    · cases restProps with
      | none => simp only [Option.toList_none, List.map_nil, List.map_eq_nil_iff] at k4; rw [k4, List.append_nil]; exact ⟨rfl, h4⟩
      | some r =>
        obtain ⟨xs, hm, h⟩ := h4
        have : rp = [(r.field, .pairs xs)] := one_field (o := some r.field) (fun y hy => by simp [hy]) hn (by simpa using k4) rfl hm
        exact ⟨xs, by rw [this], h⟩
    · cases restKids with
      | none =>
        simp only [RestKids.fields, List.map_eq_nil_iff] at k6
        rw [RestKids.Reads] at h6
        rw [k6, List.append_nil]; exact ⟨rfl, h6⟩
      | some f i =>
        rw [RestKids.Reads] at h6
        obtain ⟨xs, hm, h⟩ := h6
        have : e6 = [(f, .list xs)] := one_field (o := some f) (fun y hy => by simp [hy]) hn (by simpa [RestKids.fields] using k6) rfl hm
        exact ⟨xs, by rw [this], h⟩

theorem nonEmpty_iff (n : SpannedNode S) : nonEmptyNode n = true ↔ NonEmpty n := by
  unfold nonEmptyNode NonEmpty
  cases n.value.arguments <;> cases n.value.properties <;> cases n.value.children <;> simp

theorem names_settle (ptr : Nat) (l : List (AttrAccess × (Str → Except Str (FVal Leaf)))) (n : SpannedNode S) :
    Settles (E := E) (decodeNodeNames n (l.map fun f => ⟨f.1, nameImpls ptr f.2⟩))
      (Each2 (fun f y => y.1 = f.1 ∧ f.2 n.value.nodeName.value = .ok y.2) l) := by
  induction l with
  | nil =>
    refine (Settles.pure _).imp fun v => ⟨?_, ?_⟩
    · rintro rfl; exact .nil
    · intro h; cases h; rfl
  | cons f l ih =>
    simp only [List.map_cons, decodeNodeNames]
    refine ((liftConv_settles n.value.nodeName (f.2 n.value.nodeName.value)).bind fun v => ih.map fun env => (f.1, v) :: env).imp
      fun v => ⟨?_, ?_⟩
    · rintro ⟨x, h1, env, h2, rfl⟩; exact .cons ⟨rfl, h1⟩ h2
    · intro h
      cases h with
      | @cons _ y _ env h1 h2 =>
        obtain ⟨g, x⟩ := y
        obtain ⟨h1, h3⟩ := h1
        dsimp only at h1 h3
        subst h1
        exact ⟨x, h3, env, h2, rfl⟩

theorem types_settle (ptr : Nat) (l : List (AttrAccess × Bool × (Str → Except Str (FVal Leaf)))) (n : SpannedNode S) :
    Settles (E := E) (decodeTypeNames n (l.map fun f => ⟨f.1, f.2.1, nameImpls ptr f.2.2⟩))
      (Each2 (fun f y => y.1 = f.1 ∧ match n.value.typeName.map (·.value) with
        | some tn => ∃ x, f.2.2 tn.asStr = .ok x ∧ y.2 = if f.2.1 then .some x else x
        | none => f.2.1 = true ∧ y.2 = .none) l) := by
  induction l with
  | nil =>
    refine (Settles.pure _).imp fun v => ⟨?_, ?_⟩
    · rintro rfl; exact .nil
    · intro h; cases h; rfl
  | cons f l ih =>
    simp only [List.map_cons, decodeTypeNames]
    have one : Settles (E := E) (decodeTypeName n ⟨f.1, f.2.1, nameImpls ptr f.2.2⟩) fun y =>
        match n.value.typeName.map (·.value) with
        | some tn => ∃ x, f.2.2 tn.asStr = .ok x ∧ y = if f.2.1 then .some x else x
        | none => f.2.1 = true ∧ y = .none := by
      unfold decodeTypeName
      cases n.value.typeName with
      | some tn => exact (liftConv_settles tn (f.2.2 tn.value.asStr)).map _
      | none =>
        refine Settles.ite (fun h => (Settles.pure _).imp fun v => ?_) (fun h => (Settles.fail _).imp fun v => ?_)
        · dsimp only at h; simp [h]
        · dsimp only at h; simp [h]
    refine (one.bind fun v => ih.map fun env => (f.1, v) :: env).imp fun v => ⟨?_, ?_⟩
    · rintro ⟨x, h1, env, h2, rfl⟩; exact .cons ⟨rfl, h1⟩ h2
    · intro h
      cases h with
      | @cons _ y _ env h1 h2 =>
        obtain ⟨g, x⟩ := y
        obtain ⟨h1, h3⟩ := h1
        dsimp only at h1
        subst h1
        exact ⟨x, h3, env, h2, rfl⟩

theorem struct_specials (ptr : Nat) (o : Own) (c : Content) (n : SpannedNode S) :
    Settles (E := E) (decodeSpecials (o.into ptr (c.struct ptr)) n) fun e => ∃ a t, e = a ++ t ∧
      o.ReadsName n.value.nodeName.value a ∧ o.ReadsType (n.value.typeName.map (·.value)) t := by
  have hsp : (o.into ptr (c.struct (E := E) (S := S) ptr)).spans = [] := by
    obtain ⟨args, rest, props, restProps, kids, restKids⟩ := c
    simp only [Own.into, Content.struct]
  unfold decodeSpecials
  rw [hsp]
  simp only [decodeSpans, pure_bind]
  refine ((names_settle ptr o.names n).bind fun a => (types_settle ptr o.types n).bind
    (R := fun t e => e = a ++ t ∧ (o.types = [] → n.value.typeName = none)) fun t => ?_).imp fun e => ?_
  · have he : ((o.into ptr (c.struct (E := E) (S := S) ptr)).typeNames.isEmpty = true) ↔ o.types = [] := by
      simp [Own.into]
    split
    · rename_i h
      rw [he] at h
      cases n.value.typeName with
      | none => exact ((Settles.pure ()).map fun _ => [] ++ a ++ t).imp fun e => by simp [h]
      | some tn => exact ((Settles.emit _).map fun _ => [] ++ a ++ t).imp fun e => by simp [h]
    · rename_i h
      rw [he] at h
      exact ((Settles.pure ()).map fun _ => [] ++ a ++ t).imp fun e => by simp [h]
  · constructor
    · rintro ⟨a, h1, t, h2, rfl, h3⟩
      exact ⟨a, t, rfl, h1, fun h => by rw [h3 h]; rfl, h2⟩
    · rintro ⟨a, t, rfl, h1, h3, h2⟩
      exact ⟨a, h1, t, h2, rfl, fun h => by simpa using h3 h⟩

theorem own_extra (ptr : Nat) (o : Own) (s : Struct E S Leaf) : assignExtra (o.into ptr s) = o.extras := by
  simp [assignExtra, Own.into, extraImpls, Function.comp_def]

theorem own_props (ptr : Nat) (o : Own) (s : Struct E S Leaf) (l : List (Spanned Str S × Value S)) (sts : List (PropState Leaf))
    (var : List (FVal Leaf × FVal Leaf)) : propLoop (o.into ptr s) l sts var = propLoop s l sts var := by
  induction l generalizing sts var with
  | nil => rfl
  | cons q l ih => simp only [propLoop, ih]; rfl

theorem own_kids (ptr : Nat) (o : Own) (s : Struct E S Leaf) (l : List (SpannedNode S)) (flds var : List (FVal Leaf)) :
    childLoop (o.into ptr s) l flds var = childLoop s l flds var := by
  induction l generalizing flds var with
  | nil => rfl
  | cons q l ih => simp only [childLoop, ih]; rfl

theorem own_children (ptr : Nat) (o : Own) (s : Struct E S Leaf) (sp : Option S) (l : List (SpannedNode S)) :
    decodeChildren (o.into ptr s) sp l = decodeChildren s sp l := by
  unfold decodeChildren
  rw [own_kids]
  rfl

theorem own_content (ptr : Nat) (o : Own) (s : Struct E S Leaf) (n : SpannedNode S) :
    decodeContent (o.into ptr s) n = decodeContent s n := by
  unfold decodeContent decodeProps
  rw [own_children, own_props]
  rfl

theorem struct_extra (ptr : Nat) (c : Content) : assignExtra (c.struct (E := E) (S := S) ptr) = [] := by
  obtain ⟨args, rest, props, restProps, kids, restKids⟩ := c
  simp only [Content.struct, assignExtra, List.map_nil]

mutual
theorem decl_settles (E S : Type) (ptr : Nat) : ∀ d : Decl, d.Proper → ∀ n : SpannedNode S,
    Settles (E := E) (d.node ptr n) (d.Reads ptr n)
  | .struct o c, hp, n => by
    rw [Decl.Proper] at hp
    have h := content_good E S ptr c hp n
    simp only [Decl.node, Struct.node, own_extra, own_content]
    refine ((struct_specials ptr o c n).bind fun sp => h.map fun body => FVal.record (sp ++ body ++ o.extras)).imp fun v => ?_
    rw [Decl.Reads]
    constructor
    · rintro ⟨sp, ⟨a, t, rfl, h1, h3⟩, env, h2, rfl⟩; exact ⟨a, t, env, rfl, h1, h3, h2⟩
    · rintro ⟨a, t, env, rfl, h1, h3, h2⟩; exact ⟨a ++ t, ⟨a, t, rfl, h1, h3⟩, env, h2, rfl⟩
  | .enum cases, hp, n => by
    rw [Decl.Proper] at hp
    have h := cases_good E S ptr cases hp
    simp only [Decl.node, enumNode]
    generalize (List.map (fun x => x.name) (casesVariants ptr cases : List (Variant E S Leaf))) = names
    refine (h names n).imp fun v => ?_
    rw [Decl.Reads]
theorem content_good (E S : Type) (ptr : Nat) : ∀ c : Content, c.Proper → ∀ n : SpannedNode S,
    Settles (E := E) (decodeContent (c.struct ptr) n) (c.Reads ptr n)
  | .mk args rest props restProps kids restKids, hp, n => by
    rw [Content.Proper] at hp
    obtain ⟨h1, h2, h3, h4, h5⟩ := hp
    exact content_settles ptr args rest props restProps kids restKids h1 h2 h3 (kids_good E S ptr kids h4) (rest_good E S ptr restKids h5) n
theorem kids_good (E S : Type) (ptr : Nat) : ∀ ks : List Kid, kidsProper ks → ∀ k ∈ ks, k.Good E S ptr
  | [], _, k, hk => by simp at hk
  | k :: ks, hp, k', hk => by
    rw [kidsProper] at hp
    rcases List.mem_cons.1 hk with h | h
    · rw [h]; exact kid_good E S ptr k hp.1
    · exact kids_good E S ptr ks hp.2 k' h
theorem kid_good (E S : Type) (ptr : Nat) : ∀ k : Kid, k.Proper → k.Good E S ptr
  | .flag _, _ => trivial
  | .one _ i, hp => inner_good E S ptr i (by rw [Kid.Proper] at hp; exact hp)
  | .opt _ i, hp => inner_good E S ptr i (by rw [Kid.Proper] at hp; exact hp)
  | .orElse _ _ i, hp => inner_good E S ptr i (by rw [Kid.Proper] at hp; exact hp)
  | .many _ _ i, hp => inner_good E S ptr i (by rw [Kid.Proper] at hp; exact hp)
theorem rest_good (E S : Type) (ptr : Nat) : ∀ k : RestKids, k.Proper → k.Good E S ptr
  | .none, _ => trivial
  | .some _ i, hp => inner_good E S ptr i (by rw [RestKids.Proper] at hp; exact hp)
theorem inner_good (E S : Type) (ptr : Nat) : ∀ i : Inner, i.Proper → i.Good E S ptr
  | .type d, hp => fun n => by
    rw [Inner.Proper] at hp
    have h := decl_settles E S ptr d hp n
    simp only [Inner.decoder]
    exact h.imp fun v => by rw [Inner.Reads]
  | .unwrap field c, hp => fun n => by
    rw [Inner.Proper] at hp
    have h := content_good E S ptr c hp.2 n
    simp only [Inner.decoder, unwrapNode]
    refine (h.map fun env => env.get field).imp fun v => ?_
    rw [Inner.Reads]
    have keys : ∀ env, c.Reads ptr n env → env.map (·.1) = [field] := by
      intro env he
      rw [← hp.1]
      obtain ⟨args, rest, props, restProps, kids, restKids⟩ := c
      rw [Content.Reads.eq_def] at he
      exact he.1
    constructor
    · rintro ⟨env, h1, rfl⟩
      have k := keys env h1
      obtain ⟨y, l, rfl, h3, h4⟩ := List.map_eq_cons_iff.1 k
      rw [List.map_eq_nil_iff] at h4
      subst h4
      obtain ⟨g, z⟩ := y
      dsimp only at h3
      subst h3
      have : Env.get [(g, z)] g = z := by simp [Env.get, FVal.field]
      rw [this]; exact h1
    · intro h1
      exact ⟨_, h1, by simp [Env.get, FVal.field]⟩
theorem cases_good (E S : Type) (ptr : Nat) : ∀ l : List Case, casesProper l → ∀ (names : List Str) (n : SpannedNode S),
    Settles (E := E) (enumArms names n (casesVariants ptr l)) (casesRead ptr l n)
  | [], _, names, n => by
    simp only [casesVariants, enumArms]
    exact (Settles.fail _).imp fun v => by rw [casesRead]
  | k :: l, hp, names, n => by
    rw [casesProper] at hp
    have h1 := case_good E S ptr k hp.1 n
    have h2 := cases_good E S ptr l hp.2 names n
    have hname : (k.variant (E := E) (S := S) ptr).name = k.name := by
      cases k <;> simp only [Case.variant, Case.name]
    simp only [casesVariants, enumArms, hname]
    refine Settles.ite (fun h => h1.imp fun v => ?_) (fun h => h2.imp fun v => ?_)
    · rw [casesRead, if_pos h]
    · rw [casesRead, if_neg h]
theorem case_good (E S : Type) (ptr : Nat) : ∀ k : Case, k.Proper → ∀ n : SpannedNode S,
    Settles (E := E) ((k.variant ptr).arm n) (k.Reads ptr n)
  | .unit i, _, n => by
    simp only [Case.variant, Variant.arm]
    refine ((flag_settles n).map fun _ => FVal.variant i (.record [])).imp fun v => ?_
    rw [Case.Reads]
    constructor
    · rintro ⟨-, h1, h2⟩; exact ⟨h2, h1⟩
    · rintro ⟨h1, h2⟩; exact ⟨(), h2, h1⟩
  | .nested i d, hp, n => by
    rw [Case.Proper] at hp
    have h := decl_settles E S ptr d hp n
    simp only [Case.variant, Variant.arm]
    refine (h.map fun x => FVal.variant i x).imp fun v => ?_
    rw [Case.Reads]
    constructor
    · rintro ⟨x, h1, h2⟩; exact ⟨x, h2, h1⟩
    · rintro ⟨x, h1, h2⟩; exact ⟨x, h2, h1⟩
  | .nestedOpt i d, hp, n => by
    rw [Case.Proper] at hp
    have h := decl_settles E S ptr d hp n
    simp only [Case.variant, Variant.arm]
    refine Settles.ite (fun hn => (h.map fun x => FVal.variant i (.some x)).imp fun v => ?_)
      (fun hn => (Settles.pure _).imp fun v => ?_)
    · rw [nonEmpty_iff] at hn
      rw [Case.Reads]
      constructor
      · rintro ⟨x, h1, h2⟩; exact .inr ⟨x, h2, hn, h1⟩
      · rintro (⟨-, h1⟩ | ⟨x, h1, -, h2⟩)
        · exact absurd hn h1
        · exact ⟨x, h2, h1⟩
    · rw [nonEmpty_iff] at hn
      rw [Case.Reads]
      constructor
      · intro h1; exact .inl ⟨h1, hn⟩
      · rintro (⟨h1, -⟩ | ⟨x, -, h1, -⟩)
        · exact h1
        · exact absurd h1 hn
  | .tuple i c, hp, n => by
    rw [Case.Proper] at hp
    have h := content_good E S ptr c hp n
    simp only [Case.variant, Variant.arm, struct_extra]
    refine (h.map fun env => FVal.variant i (.record (env ++ []))).imp fun v => ?_
    rw [Case.Reads]
    constructor
    · rintro ⟨env, h1, rfl⟩; exact ⟨env, by simp, h1⟩
    · rintro ⟨env, rfl, h1⟩; exact ⟨env, h1, by simp⟩
end

/-- The children of a document. -/
theorem root_settles (E S : Type) (ptr : Nat) (extras : List (AttrAccess × FVal Leaf)) (kids : List Kid) (restKids : RestKids)
    (hp : (Content.mk [] none [] none kids restKids).Proper) (nodes : List (SpannedNode S)) :
    Settles (E := E) ((Own.into ptr { extras := extras } (Content.struct ptr (.mk [] none [] none kids restKids))).root nodes)
      ((Content.mk [] none [] none kids restKids).ReadsRoot ptr extras nodes) := by
  rw [Content.Proper] at hp
  obtain ⟨hf, -, h3, h4, hrk⟩ := hp
  simp only [Struct.root, own_extra, own_children]
  refine ((kids_settle ptr [] none [] none kids restKids h3 (kids_good E S ptr kids h4) (rest_good E S ptr restKids hrk)
    none nodes).map fun c => FVal.record (c ++ extras)).imp fun v => ?_
  have hfe : (Content.mk [] none [] none kids restKids).fields = kids.map Kid.field ++ restKids.fields := by
    rw [fields_eq]; simp
  rw [hfe] at hf
  show _ ↔ ∃ env, v = .record (env ++ extras) ∧ env.map (·.1) = _ ∧ _
  rw [hfe]
  constructor
  · rintro ⟨c, ⟨ec, h5, h6⟩, rfl⟩
    have kc : c.map (·.1) = kids.map Kid.field ++ restKids.fields := by
      cases restKids with
      | none => simp [h6.1, h5.1, RestKids.fields]
      | some f i => obtain ⟨xs, rfl, -⟩ := h6; simp [h5.1, RestKids.fields]
    have sc : ∀ y ∈ ec, y ∈ c := by
      intro y hy
      cases restKids with
      | none => rw [h6.1]; exact hy
      | some f i => obtain ⟨xs, rfl, -⟩ := h6; simp [hy]
    refine ⟨c, rfl, kc, ?_, ?_⟩
    · rw [kidsRead_iff]
      exact (fills_all sc (by rw [kc]; exact hf) h5.1).1 h5
    · cases restKids with
      | none => simpa only [RestKids.Reads] using h6.2
      | some f i =>
        obtain ⟨xs, rfl, h⟩ := h6
        rw [RestKids.Reads]
        exact ⟨xs, by simp, h⟩
  · rintro ⟨env, rfl, keys, h5, h6⟩
    have hn : (env.map (·.1)).Nodup := by rw [keys]; exact hf
    obtain ⟨ec, e6, rfl, k5, k6⟩ := map_split keys
    have fc := (fills_all (e := ec) (fld := Kid.field) (fun y hy => by simp [hy]) hn k5).2 ((kidsRead_iff _ _ _ _).1 h5)
    refine ⟨ec ++ e6, ⟨ec, fc, ?_⟩, rfl⟩
    cases restKids with
    | none =>
      simp only [RestKids.fields, List.map_eq_nil_iff] at k6
      rw [RestKids.Reads] at h6
      rw [k6, List.append_nil]; exact ⟨rfl, h6⟩
    | some f i =>
      rw [RestKids.Reads] at h6
      obtain ⟨xs, hm, h⟩ := h6
      have : e6 = [(f, .list xs)] := one_field (o := some f) (fun y hy => by simp [hy]) hn (by simpa [RestKids.fields] using k6) rfl hm
      exact ⟨xs, by rw [this], h⟩

/-! ### The macro -/

theorem attr_getD (t : Scal) : t.attr.getD .normal = t.mode := by cases t <;> rfl

/-- One more field. -/
def addDef (b : Struct E S Leaf) (f : FieldDef E S Leaf) : Except Str (Struct E S Leaf) :=
  addField b f.field f.isOption f.isBool f.attrs

theorem unwrapFn_eq (field : AttrAccess) (attrs : FieldAttrs E S Leaf) (h0 : attrs.base.mode ≠ none)
    (h1 : attrs.base.mode ≠ some .span) (h2 : attrs.base.mode ≠ some .nodeName) (h3 : attrs.base.mode ≠ some .typeName) :
    unwrapFn field attrs = (do
      let s ← addField {} field false false attrs
      pure (unwrapNode s field)) := by
  cases attrs with
  | plain a =>
    rw [unwrapFn, addField]
    simp only [FieldAttrs.base] at h0 h1 h2 h3
    split <;> first | contradiction | rfl
  | unwrapped a i =>
    rw [unwrapFn, addField]
    simp only [FieldAttrs.base] at h0 h1 h2 h3
    split <;> first | contradiction | rfl

theorem args_new (ptr : Nat) (args : List ArgD) (b : Struct E S Leaf) (hb : b.varArgs = none) :
    (args.map fun a => (⟨a.field, a.option, false,
      .plain ⟨some .argument, a.ty.attr, a.default.map some, a.ty.impls ptr a.option⟩⟩ : FieldDef E S Leaf)).foldlM addDef b =
    .ok { b with arguments := b.arguments ++ args.map (fun a => ⟨a.field, a.option, a.ty.mode, a.default, a.ty.impls ptr a.option⟩) } := by
  induction args generalizing b with
  | nil => simp [pure, Except.pure]
  | cons a args ih =>
    have : addDef b ⟨a.field, a.option, false,
        .plain ⟨some .argument, a.ty.attr, a.default.map some, a.ty.impls ptr a.option⟩⟩ =
        .ok { b with arguments := b.arguments ++ [⟨a.field, a.option, a.ty.mode, a.default, a.ty.impls ptr a.option⟩] } := by
      simp only [addDef, addField, addFieldWith, errPair, hb, attr_getD, PlainAttrs.defaultVal]
      cases a.default <;> rfl
    rw [List.map_cons, List.foldlM_cons, this]
    simp only [bind, Except.bind]
    rw [ih]
    · simp
    · exact hb

theorem props_new (ptr : Nat) (props : List PropD) (b : Struct E S Leaf) (hb : b.varProps = none) :
    (props.map fun p => (⟨p.field, p.option, false,
      .plain ⟨some (.property (some p.name)), p.ty.attr, p.default.map some, p.ty.impls ptr p.option⟩⟩ : FieldDef E S Leaf)).foldlM addDef b =
    .ok { b with properties := b.properties ++ props.map (fun p => ⟨p.field, p.name, p.option, p.ty.mode, false, p.default, p.ty.impls ptr p.option⟩) } := by
  induction props generalizing b with
  | nil => simp [pure, Except.pure]
  | cons a props ih =>
    have : addDef b ⟨a.field, a.option, false,
        .plain ⟨some (.property (some a.name)), a.ty.attr, a.default.map some, a.ty.impls ptr a.option⟩⟩ =
        .ok { b with properties := b.properties ++ [⟨a.field, a.name, a.option, a.ty.mode, false, a.default, a.ty.impls ptr a.option⟩] } := by
      simp only [addDef, addField, addFieldWith, errPair, hb, attr_getD, PlainAttrs.defaultVal]
      cases a.default <;> rfl
    rw [List.map_cons, List.foldlM_cons, this]
    simp only [bind, Except.bind]
    rw [ih]
    · simp
    · exact hb

/-- Is there an `unwrap`? -/
def Inner.isUnwrap : Inner → Bool
  | .type _ => false
  | .unwrap _ _ => true

theorem inner_mode (ptr : Nat) (i : Inner) (mode : Option FieldMode) (default : Option (Option (FVal Leaf))) :
    (i.attrs (E := E) (S := S) ptr mode default).base.mode = mode := by
  cases i <;> simp [Inner.attrs, FieldAttrs.base]

theorem kidsDefs_eq (ptr : Nat) (ks : List Kid) : kidsDefs (E := E) (S := S) ptr ks = ks.map (Kid.def ptr) := by
  induction ks with
  | nil => simp [kidsDefs]
  | cons k ks ih => simp [kidsDefs, ih]

theorem inside_one (ptr : Nat) (c : Content) (field : AttrAccess) (h : c.Inside field) :
    ∃ d : FieldDef E S Leaf, c.defs ptr = [d] ∧ d.field = field ∧ d.isOption = false ∧ d.isBool = false ∧
      d.attrs.base.mode ≠ none ∧ d.attrs.base.mode ≠ some .span ∧ d.attrs.base.mode ≠ some .nodeName ∧
      d.attrs.base.mode ≠ some .typeName := by
  obtain ⟨args, rest, props, restProps, kids, restKids⟩ := c
  obtain ⟨hf, ha, hp, hk⟩ := h
  have all : ∀ d ∈ (Content.mk args rest props restProps kids restKids).defs (E := E) (S := S) ptr,
      d.isOption = false ∧ d.isBool = false ∧ d.attrs.base.mode ≠ none ∧ d.attrs.base.mode ≠ some .span ∧
      d.attrs.base.mode ≠ some .nodeName ∧ d.attrs.base.mode ≠ some .typeName := by
    intro d hd
    simp only [Content.defs, kidsDefs_eq, List.mem_append, List.mem_map] at hd
    rcases hd with ((((⟨a, h1, rfl⟩ | ⟨a, h1, rfl⟩) | ⟨a, h1, rfl⟩) | ⟨a, h1, rfl⟩) | ⟨k, h1, rfl⟩) | h1
    · simp [ha a h1, FieldAttrs.base]
    · simp [FieldAttrs.base]
    · simp [hp a h1, FieldAttrs.base]
    · simp [FieldAttrs.base]
    · have := hk k h1
      cases k with
      | flag _ => exact this.elim
      | opt _ _ => exact this.elim
      | _ => simp [Kid.def, inner_mode]
    · cases restKids with
      | none => simp [RestKids.defs] at h1
      | some f i =>
        simp only [RestKids.defs, List.mem_singleton] at h1
        subst h1
        simp [inner_mode]
  have hm : ((Content.mk args rest props restProps kids restKids).defs (E := E) (S := S) ptr).map (·.field) = [field] := by
    rw [← hf, fields_eq]
    simp only [Content.defs, kidsDefs_eq, List.map_append, List.map_map]
    have : ((fun d : FieldDef E S Leaf => d.field) ∘ Kid.def ptr) = Kid.field := by
      funext k; cases k <;> simp [Kid.def, Kid.field]
    rw [this]
    cases restKids <;> simp [RestKids.defs, RestKids.fields, Function.comp_def]
  obtain ⟨d, l, e, h1, h2⟩ := List.map_eq_cons_iff.1 hm
  rw [List.map_eq_nil_iff] at h2
  subst h2
  exact ⟨d, e, h1, all d (by rw [e]; simp)⟩

mutual
theorem content_new (E S : Type) (ptr : Nat) : ∀ c : Content, c.Written →
    (c.defs ptr).foldlM addDef ({} : Struct E S Leaf) = .ok (c.struct ptr)
  | .mk args rest props restProps kids restKids, h => by
    rw [Content.Written] at h
    have hk := kids_new E S ptr kids h.1
    have hr := rest_new E S ptr restKids h.2
    simp only [Content.defs, Content.struct, List.foldlM_append]
    rw [args_new ptr args {} rfl]
    simp only [bind, Except.bind]
    have hrest : ∀ b : Struct E S Leaf, b.varArgs = none → (rest.toList.map fun r => (⟨r.field, false, false,
        .plain ⟨some .arguments, r.ty.attr, none, r.ty.impls ptr false⟩⟩ : FieldDef E S Leaf)).foldlM addDef b =
        .ok { b with varArgs := rest.map (fun r => ⟨r.field, r.ty.mode, r.ty.impls ptr false⟩) } := by
      intro b hb
      cases rest with
      | none => simp [pure, Except.pure, hb.symm]
      | some r =>
        simp only [Option.toList_some, List.map_cons, List.map_nil, List.foldlM_cons, List.foldlM_nil, addDef, addField, addFieldWith,
          errPair, hb, attr_getD]
        rfl
    have hrestp : ∀ b : Struct E S Leaf, b.varProps = none → (restProps.toList.map fun r => (⟨r.field, false, false,
        .plain ⟨some .properties, r.ty.attr, none, r.ty.impls ptr false⟩⟩ : FieldDef E S Leaf)).foldlM addDef b =
        .ok { b with varProps := restProps.map (fun r => ⟨r.field, r.ty.mode, r.ty.impls ptr false⟩) } := by
      intro b hb
      cases restProps with
      | none => simp [pure, Except.pure, hb.symm]
      | some r =>
        simp only [Option.toList_some, List.map_cons, List.map_nil, List.foldlM_cons, List.foldlM_nil, addDef, addField, addFieldWith,
          errPair, hb, attr_getD]
        rfl
    rw [hrest _ rfl]
    dsimp only
    rw [props_new ptr props _ rfl]
    dsimp only
    rw [hrestp _ rfl]
    dsimp only
    rw [hk _ rfl]
    dsimp only
    rw [hr _ rfl]
    simp
theorem kids_new (E S : Type) (ptr : Nat) : ∀ ks : List Kid, kidsWritten ks → ∀ b : Struct E S Leaf, b.varChildren = none →
    (kidsDefs ptr ks).foldlM addDef b = .ok { b with children := b.children ++ kidsChildren ptr ks }
  | [], _, b, _ => by simp [kidsDefs, kidsChildren, pure, Except.pure]
  | k :: ks, h, b, hb => by
    rw [kidsWritten] at h
    have h1 := kid_new E S ptr k h.1 b hb
    have h2 := kids_new E S ptr ks h.2 { b with children := b.children ++ [k.child ptr] } hb
    rw [kidsDefs, List.foldlM_cons, h1]
    refine h2.trans ?_
    simp [kidsChildren]
theorem kid_new (E S : Type) (ptr : Nat) : ∀ k : Kid, k.Written → ∀ b : Struct E S Leaf, b.varChildren = none →
    addDef b (k.def ptr) = .ok { b with children := b.children ++ [k.child ptr] }
  | .flag f, _, b, hb => by
    simp only [Kid.def, Kid.child, addDef, addField, addFieldWith, errPair, hb]
    rfl
  | .one f i, h, b, hb => by
    rw [Kid.Written] at h
    have hi := inner_new E S ptr i (.named f) h b false false (some .child) none
    simp only [Kid.def, Kid.child, addDef, hi, addFieldWith, errPair, hb]
    simp [pure, Except.pure, bind, Except.bind, PlainAttrs.noDecode, PlainAttrs.defaultVal]
  | .opt f i, h, b, hb => by
    rw [Kid.Written] at h
    have hi := inner_new E S ptr i (.named f) h b true false (some .child) none
    simp only [Kid.def, Kid.child, addDef, hi, addFieldWith, errPair, hb]
    simp [pure, Except.pure, bind, Except.bind, PlainAttrs.noDecode, PlainAttrs.defaultVal]
  | .orElse f d i, h, b, hb => by
    rw [Kid.Written] at h
    have hi := inner_new E S ptr i (.named f) h b false false (some .child) (some (some d))
    simp only [Kid.def, Kid.child, addDef, hi, addFieldWith, errPair, hb]
    simp [pure, Except.pure, bind, Except.bind, PlainAttrs.noDecode, PlainAttrs.defaultVal]
  | .many f name i, h, b, hb => by
    rw [Kid.Written] at h
    have hi := inner_new E S ptr i f h b false false (some (.children (some name))) none
    simp only [Kid.def, Kid.child, addDef, hi, addFieldWith, errPair, hb]
    simp [pure, Except.pure, bind, Except.bind, PlainAttrs.noDecode, PlainAttrs.defaultVal]
theorem rest_new (E S : Type) (ptr : Nat) : ∀ k : RestKids, k.Written → ∀ b : Struct E S Leaf, b.varChildren = none →
    (k.defs ptr).foldlM addDef b = .ok { b with varChildren := k.var ptr }
  | .none, _, b, hb => by simp [RestKids.defs, RestKids.var, pure, Except.pure, hb.symm]
  | .some f i, h, b, hb => by
    rw [RestKids.Written] at h
    have hi := inner_new E S ptr i f h b false false (some (.children none)) none
    simp only [RestKids.defs, RestKids.var, List.foldlM_cons, List.foldlM_nil, addDef, hi, addFieldWith, errPair, hb]
    simp [pure, Except.pure, bind, Except.bind, PlainAttrs.noDecode]
theorem inner_new (E S : Type) (ptr : Nat) : ∀ (i : Inner) (outer : AttrAccess), i.Written outer →
    ∀ (b : Struct E S Leaf) (o bl : Bool) (mode : Option FieldMode) (default : Option (Option (FVal Leaf))),
    addField b outer o bl (i.attrs ptr mode default) =
      addFieldWith b outer o bl ⟨mode, none, default, nodeImpls ptr (i.decoder ptr)⟩ i.isUnwrap (.ok (i.decoder ptr))
  | .type d, outer, h, b, o, bl, mode, default => by
    simp only [Inner.attrs, addField, Inner.isUnwrap]
    rfl
  | .unwrap field c, outer, h, b, o, bl, mode, default => by
    rw [Inner.Written] at h
    obtain ⟨hf, hin, hw⟩ := h
    have hc := content_new E S ptr c hw
    have key : unwrapFn (.named outer.tmpName) (onlyAttrs ptr (c.defs ptr)) = Except.ok (Inner.decoder (E := E) (S := S) ptr (.unwrap field c)) := by
      rw [← hf]
      obtain ⟨d, hd, e1, e2, e3, m0, m1, m2, m3⟩ : ∃ d : FieldDef E S Leaf, c.defs ptr = [d] ∧ d.field = field ∧ d.isOption = false ∧ d.isBool = false ∧
          d.attrs.base.mode ≠ none ∧ d.attrs.base.mode ≠ some .span ∧ d.attrs.base.mode ≠ some .nodeName ∧
          d.attrs.base.mode ≠ some .typeName := inside_one ptr c field hin
      rw [hd] at hc ⊢
      simp only [onlyAttrs]
      rw [unwrapFn_eq _ _ m0 m1 m2 m3]
      simp only [List.foldlM_cons, List.foldlM_nil, addDef, e1, e2, e3] at hc
      simp only [Inner.decoder]
      cases ha : addField ({} : Struct E S Leaf) field false false d.attrs with
      | error m => rw [ha] at hc; simp [bind, Except.bind] at hc
      | ok s =>
        rw [ha] at hc
        simp only [bind, Except.bind, pure, Except.pure, Except.ok.injEq] at hc ⊢
        rw [hc]
    simp only [Inner.attrs, addField, Inner.isUnwrap, key]
end

theorem own_new (E S : Type) (ptr : Nat) (o : Own) (s : Struct E S Leaf) (h1 : s.nodeNames = []) (h2 : s.typeNames = [])
    (h3 : s.extraFields = []) : (o.defs ptr).foldlM addDef s = .ok (o.into ptr s) := by
  have names : ∀ (l : List (AttrAccess × (Str → Except Str (FVal Leaf)))) (b : Struct E S Leaf),
      (l.map fun f => (⟨f.1, false, false, .plain ⟨some .nodeName, none, none, nameImpls ptr f.2⟩⟩ : FieldDef E S Leaf)).foldlM addDef b =
      .ok { b with nodeNames := b.nodeNames ++ l.map fun f => ⟨f.1, nameImpls ptr f.2⟩ } := by
    intro l
    induction l with
    | nil => intro b; simp [pure, Except.pure]
    | cons f l ih =>
      intro b
      rw [List.map_cons, List.foldlM_cons]
      have : addDef b ⟨f.1, false, false, .plain ⟨some .nodeName, none, none, nameImpls ptr f.2⟩⟩ =
          .ok { b with nodeNames := b.nodeNames ++ [⟨f.1, nameImpls ptr f.2⟩] } := by
        simp only [addDef, addField, addFieldWith]
        rfl
      rw [this]
      simp only [bind, Except.bind]
      rw [ih]
      simp
  have types : ∀ (l : List (AttrAccess × Bool × (Str → Except Str (FVal Leaf)))) (b : Struct E S Leaf),
      (l.map fun f => (⟨f.1, f.2.1, false, .plain ⟨some .typeName, none, none, nameImpls ptr f.2.2⟩⟩ : FieldDef E S Leaf)).foldlM addDef b =
      .ok { b with typeNames := b.typeNames ++ l.map fun f => ⟨f.1, f.2.1, nameImpls ptr f.2.2⟩ } := by
    intro l
    induction l with
    | nil => intro b; simp [pure, Except.pure]
    | cons f l ih =>
      intro b
      rw [List.map_cons, List.foldlM_cons]
      have : addDef b ⟨f.1, f.2.1, false, .plain ⟨some .typeName, none, none, nameImpls ptr f.2.2⟩⟩ =
          .ok { b with typeNames := b.typeNames ++ [⟨f.1, f.2.1, nameImpls ptr f.2.2⟩] } := by
        simp only [addDef, addField, addFieldWith]
        rfl
      rw [this]
      simp only [bind, Except.bind]
      rw [ih]
      simp
  have extras : ∀ (l : List (AttrAccess × FVal Leaf)) (b : Struct E S Leaf),
      (l.map fun f => (⟨f.1, false, false, .plain ⟨none, none, none, extraImpls ptr f.2⟩⟩ : FieldDef E S Leaf)).foldlM addDef b =
      .ok { b with extraFields := b.extraFields ++ l.map fun f => ⟨f.1, false, extraImpls ptr f.2⟩ } := by
    intro l
    induction l with
    | nil => intro b; simp [pure, Except.pure]
    | cons f l ih =>
      intro b
      rw [List.map_cons, List.foldlM_cons]
      have : addDef b ⟨f.1, false, false, .plain ⟨none, none, none, extraImpls ptr f.2⟩⟩ =
          .ok { b with extraFields := b.extraFields ++ [⟨f.1, false, extraImpls ptr f.2⟩] } := by
        simp only [addDef, addField, addFieldWith]
        rfl
      rw [this]
      simp only [bind, Except.bind]
      rw [ih]
      simp
  simp only [Own.defs, List.foldlM_append, names]
  simp only [bind, Except.bind, types, extras, h1, h2, h3, List.nil_append, Own.into]

end Schema
end Knuffel
