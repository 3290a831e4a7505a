import Verif.Theory.TellsPart
import Verif.Theory.DeriveDemo
import Verif.Props.DeriveErrors
/-!
# What decode errors say

C58: what is reported about a value is true of it.  C59: what a derived decoder reports about a
node has a cause in the node.
-/

set_option linter.unusedSectionVars false

namespace Knuffel
variable {E S V α β : Type}

/-! ### C58 -/

/-- The parts of a scalar decoder that uses the provided `decode` are enough. -/
theorem truthful_provided {kinds : List Kind} {shown : Kind} {types : List TypeName}
    {tc : Option (Spanned TypeName S) → D E S Unit} {raw : Spanned Literal S → D E S α}
    (h1 : ∀ v : Value S, Tells (fun e => ∃ span found expected rust, e = .typeName span found expected rust ∧
      e.TrueOf kinds shown types v) (fun _ => True) (tc v.typeName))
    (h2 : ∀ v : Value S, Tells (DErr.TrueOf kinds shown types v) (fun _ => True) (raw v.literal)) :
    (Scalar.provided tc raw).Truthful kinds shown types where
  decode v := (((h1 v).mono (fun _ ⟨_, _, _, _, _, h⟩ => h) fun _ h => h).bind fun _ _ => h2 v).only
  typeCheck v := (h1 v).only
  rawDecode lit := (h2 ⟨none, lit⟩).only

theorem tells_noTypeCheck (kinds : List Kind) (shown : Kind) (rust : Str) (v : Value S) :
    Tells (fun e => ∃ span found expected rust, e = .typeName span found expected rust ∧
      e.TrueOf kinds shown [] v) (fun _ => True) (noTypeCheck (E := E) rust v.typeName) := by
  unfold noTypeCheck
  cases h : v.typeName with
  | none => exact .pure trivial
  | some tn => exact .emit ⟨_, _, _, _, rfl, tn, h, rfl, rfl, by simp, rfl⟩

theorem tells_numTypeCheck (kinds : List Kind) (shown : Kind) (m : BuiltinType) (rust : Str) (v : Value S) :
    Tells (fun e => ∃ span found expected rust, e = .typeName span found expected rust ∧
      e.TrueOf kinds shown [.builtin m] v) (fun _ => True) (numTypeCheck (E := E) m rust v.typeName) := by
  unfold numTypeCheck
  cases h : v.typeName with
  | none => exact .pure trivial
  | some tn =>
    refine Tells.ite (fun hne => .emit ⟨_, _, _, _, rfl, tn, h, rfl, rfl, ?_, rfl⟩) fun _ => .pure trivial
    intro hm
    rw [List.mem_singleton] at hm
    rw [hm] at hne
    exact hne rfl

/-- Emitting the error for a literal of the wrong kind. -/
theorem trueOf_kind {kinds : List Kind} {shown : Kind} {types : List TypeName} {v : Value S} (h : v.literal.value.kind ∉ kinds) :
    (DErr.kind shown v.literal).TrueOf kinds shown types v :=
  ⟨rfl, by cases v.literal.value <;> rfl, by
    have : Kind.ofLiteral v.literal.value = v.literal.value.kind := by cases v.literal.value <;> rfl
    rw [this]; exact h, rfl⟩

/-- **C58** for the types that hold a text. -/
theorem c58_text (d : Scalar E S Str) (hd : d ∈ textScalars) : d.Truthful [.string] .string [] := by
  have key : ∀ rust, (Scalar.provided (noTypeCheck rust) textRaw : Scalar E S Str).Truthful [.string] .string [] := by
    intro rust
    refine truthful_provided (tells_noTypeCheck _ _ _) fun v => ?_
    unfold textRaw
    split
    · exact .pure trivial
    · rename_i hne
      refine (Tells.emit (trueOf_kind ?_)).bind fun _ _ => .pure trivial
      cases h : v.literal.value with
      | string s => exact absurd h (hne s)
      | _ => simp [Literal.kind]
  simp only [textScalars, List.mem_cons, List.not_mem_nil, or_false] at hd
  rcases hd with rfl | rfl | rfl | rfl <;> exact key _

/-- **C58** for `bool`. -/
theorem c58_bool : (boolScalar (E := E) (S := S)).Truthful [.bool] .bool [] := by
  refine truthful_provided (tells_noTypeCheck _ _ _) fun v => ?_
  split
  · exact .pure trivial
  · rename_i hne
    refine (Tells.emit (trueOf_kind ?_)).bind fun _ _ => .pure trivial
    cases h : v.literal.value with
    | bool s => exact absurd h (hne s)
    | _ => simp [Literal.kind]

/-- **C58** for derived scalar enums. -/
theorem c58_enum (rustType : Str) (variants : List ScalarVariant) :
    (enumScalar (E := E) (S := S) (V := V) rustType variants).Truthful [.string] .string [] := by
  refine truthful_provided (tells_noTypeCheck _ _ _) fun v => ?_
  split
  · rename_i s hs
    cases variants.find? (fun v => decide (s = v.name)) with
    | some w => exact .pure trivial
    | none => exact .fail ⟨rfl, by rw [hs]; simp [Literal.kind]⟩
  · rename_i hne
    refine .fail (trueOf_kind ?_)
    cases h : v.literal.value with
    | string s => exact absurd h (hne s)
    | _ => simp [Literal.kind]

/-- **C58** for the integer types, except that the kind said to be expected is the wrong one, namely "string"
(`c58_number_fails`). -/
theorem c58_int_partial (ptr : Nat) (t : IntTy) :
    (intScalar (E := E) (S := S) ptr t).Truthful [.int] .string [.builtin t.marker] := by
  refine truthful_provided (tells_numTypeCheck _ _ _ _) fun v => ?_
  split
  · rename_i r s hs
    cases t.tryFrom ptr r s with
    | ok x => exact .pure trivial
    | error k => exact (Tells.emit ⟨rfl, by rw [hs]; simp [Literal.kind]⟩).bind fun _ _ => .pure trivial
  · rename_i hne
    refine (Tells.emit (trueOf_kind ?_)).bind fun _ _ => .pure trivial
    cases h : v.literal.value with
    | int r s => exact absurd h (hne r s)
    | _ => simp [Literal.kind]

/-- **C58** for the float types, with the same exception. -/
theorem c58_float_partial {F : Type} (t : FloatTy) (round : Str → F) (zero : F) :
    (floatScalar (E := E) (S := S) t round zero).Truthful [.decimal] .string [.builtin t.marker] := by
  refine truthful_provided (tells_numTypeCheck _ _ _ _) fun v => ?_
  split
  · rename_i s hs
    refine Tells.ite (fun _ => .pure trivial) fun _ => (Tells.emit ⟨rfl, by rw [hs]; simp [Literal.kind]⟩).bind fun _ _ => .pure trivial
  · rename_i hne
    refine (Tells.emit (trueOf_kind ?_)).bind fun _ _ => .pure trivial
    cases h : v.literal.value with
    | decimal s => exact absurd h (hne s)
    | _ => simp [Literal.kind]

/-- **C58 fails** for numbers: a literal of the wrong kind is reported as "expected string",
so that of a text it is said "expected string, found string". -/
theorem c58_number_fails {F : Type} (ptr : Nat) (t : IntTy) (ft : FloatTy) (round : Str → F) (zero : F) (s : Str) (span : S)
    (c : Ctx E S) :
    Reports ((intScalar ptr t).decode ⟨none, ⟨span, .string s⟩⟩) c [.scalarKind span .string .string] ∧
    Reports ((floatScalar ft round zero).decode ⟨none, ⟨span, .string s⟩⟩) c [.scalarKind span .string .string] :=
  ⟨reports_of_ok rfl, reports_of_ok rfl⟩

/-- **C58** for `Option`: the error about the literal is not given of `null`. -/
theorem c58_option {d : Scalar E S α} {kinds : List Kind} {shown : Kind} {types : List TypeName}
    (hd : d.Truthful kinds shown types) (hk : (∀ t, Keeps (d.typeCheck t)) ∧ ∀ l, Keeps (d.rawDecode l)) :
    (optionScalar d).Truthful (.null :: kinds) shown types := by
  refine truthful_provided (fun v => ?_) fun v => ?_
  · refine (Tells.of_only (hk.1 _) (hd.typeCheck v)).mono ?_ fun _ h => h
    rintro e ⟨a, b, c, d, rfl, h⟩
    exact ⟨a, b, c, d, rfl, h⟩
  · split
    · exact .pure trivial
    · rename_i hne
      have hne' : v.literal.value.kind ≠ .null := by
        cases h : v.literal.value with
        | null => exact absurd h (by simpa using hne)
        | _ => simp [Literal.kind]
      refine ((Tells.of_only (hk.2 _) (hd.rawDecode v.literal)).mono ?_ fun _ h => h).bind fun _ _ => .pure trivial
      intro e he
      cases e with
      | scalarKind sp ex fo =>
        obtain ⟨h1, h2, h3, h4⟩ := he
        exact ⟨h1, h2, by rw [List.mem_cons, not_or]; exact ⟨by rw [h2]; exact hne', h3⟩, h4⟩
      | conversion sp src => exact ⟨he.1, List.mem_cons_of_mem _ he.2⟩
      | typeName a b c d =>
        obtain ⟨tn, h, -⟩ := he
        cases h
      | _ => exact he.elim

/-- **C58** for `Box`, `Rc`, `Arc` and `Spanned`: the same errors as for the type inside. -/
theorem c58_pointer {Q : Type} {d : Scalar E S α} {kinds : List Kind} {shown : Kind} {types : List TypeName}
    (hd : d.Truthful kinds shown types) (hk : (∀ t, Keeps (d.typeCheck t)) ∧ ∀ l, Keeps (d.rawDecode l)) (k : PtrKind)
    (ds : SpanDecoder E S Q) (hs : ∀ s c, (ds s c).2 = c) :
    (ptrScalar k d).Truthful kinds shown types ∧ (spannedScalar ds d).Truthful kinds shown types := by
  have h1 : ∀ v : Value S, Tells (fun e => ∃ span found expected rust, e = .typeName span found expected rust ∧
      e.TrueOf kinds shown types v) (fun _ => True) (d.typeCheck v.typeName) :=
    fun v => Tells.of_only (hk.1 _) (hd.typeCheck v)
  have h2 : ∀ v : Value S, Tells (DErr.TrueOf kinds shown types v) (fun _ => True) (d.rawDecode v.literal) := by
    intro v
    refine (Tells.of_only (hk.2 _) (hd.rawDecode v.literal)).mono ?_ fun _ h => h
    intro e he
    cases e with
    | typeName a b c d =>
      obtain ⟨tn, h, -⟩ := he
      cases h
    | _ => exact he
  refine ⟨truthful_provided h1 fun v => (h2 v).bind fun _ _ => .pure trivial,
    truthful_provided h1 fun v => (h2 v).bind fun _ _ => Tells.bind (Q := fun _ => True) ?_ fun _ _ => .pure trivial⟩
  intro c
  exact ⟨⟨[], by simp [hs], by simp⟩, trivial⟩

/-- **C58** for fields with the decode mode `str`. -/
theorem c58_str [Externals] (impls : Impls E S V) (v : Value S) :
    OnlyReports (DErr.TrueOf [.string] .string [] v) (decodeValue .str false impls v) ∧
    OnlyReports (DErr.TrueOf [.null, .string] .string [] v) (decodeValue .str true impls v) := by
  have h1 : ∀ kinds, Tells (DErr.TrueOf kinds .string [] v) (fun _ => True) (strTypeCheck (E := E) v.typeName) := by
    intro kinds
    unfold strTypeCheck
    cases h : v.typeName with
    | none => exact .pure trivial
    | some tn => exact .emit ⟨tn, h, rfl, rfl, by simp, rfl⟩
  constructor
  · refine Tells.only (Q := fun _ => True) ((h1 _).bind fun _ _ => ?_)
    split
    · rename_i s hs
      exact tells_liftConv fun m hm => ⟨rfl, by rw [hs]; simp [Literal.kind]⟩
    · rename_i hne
      refine .fail (trueOf_kind ?_)
      cases h : v.literal.value with
      | string s => exact absurd h (hne s)
      | _ => simp [Literal.kind]
  · refine Tells.only (Q := fun _ => True) ((h1 _).bind fun _ _ => ?_)
    split
    · rename_i s hs
      exact (tells_liftConv fun m hm => ⟨rfl, by rw [hs]; simp [Literal.kind]⟩).bind fun _ _ => .pure trivial
    · exact .pure trivial
    · rename_i hne hnn
      refine (Tells.emit (trueOf_kind ?_)).bind fun _ _ => .pure trivial
      cases h : v.literal.value with
      | string s => exact absurd h (hne s)
      | null => exact absurd h (by simpa using hnn)
      | _ => simp [Literal.kind]

theorem tells_bytes [Externals] (kinds : List Kind) (h0 : Kind.string ∈ kinds)
    (v : Value S) (hk : v.literal.value.kind ∈ kinds → v.literal.value.kind = .string) :
    Tells (DErr.TrueOf kinds .string [.builtin .base64] v) (fun _ => True) (decodeBytes (E := E) v) := by
  have hkind : (∀ s, v.literal.value ≠ .string s) → v.literal.value.kind ∉ kinds := by
    intro h hm
    have := hk hm
    cases hl : v.literal.value with
    | string s => exact h s hl
    | _ => rw [hl] at this; cases this
  unfold decodeBytes
  cases ht : v.typeName with
  | some tn =>
    dsimp only
    split
    · split
      · rename_i s hs
        cases Externals.b64 (utf8 s) with
        | ok b => exact .pure trivial
        | error m => exact (Tells.emit ⟨rfl, by rw [hs]; exact h0⟩).bind fun _ _ => .pure trivial
      · rename_i hne
        exact (Tells.emit (trueOf_kind (hkind hne))).bind fun _ _ => .pure trivial
    · rename_i hne
      refine (Tells.emit ⟨tn, ht, rfl, rfl, ?_, rfl⟩).bind fun _ _ => .pure trivial
      intro hm
      rw [List.mem_singleton] at hm
      exact hne (by rw [hm]; rfl)
  | none =>
    dsimp only
    split
    · exact .pure trivial
    · rename_i hne
      exact (Tells.emit (trueOf_kind (hkind hne))).bind fun _ _ => .pure trivial

/-- **C58** for fields with the decode mode `bytes`, except for conversion errors: when the value is not right
there may be one besides the error about the value (`c58_bytes_fails`). -/
theorem c58_bytes_partial [Externals] (impls : Impls E S V) (v : Value S) :
    OnlyReports (fun e => e.TrueOf [.string] .string [.builtin .base64] v ∨ ∃ m, e = .conversion v.literal.span (.text m))
      (decodeValue .bytes false impls v) ∧
    OnlyReports (fun e => e.TrueOf [.null, .string] .string [.builtin .base64] v ∨ ∃ m, e = .conversion v.literal.span (.text m))
      (decodeValue .bytes true impls v) := by
  constructor
  · refine Tells.only (Q := fun _ => True) (Tells.bind (((tells_bytes [.string] (by simp) v (by simp)).mono
      (fun _ h => Or.inl h) fun _ h => h)) fun b _ => ?_)
    exact tells_liftConv fun m _ => Or.inr ⟨m, rfl⟩
  · refine Tells.only (Q := fun _ => True) ?_
    unfold decodeValue
    dsimp only
    split
    · exact .pure trivial
    · rename_i hne
      have hk : v.literal.value.kind ∈ [Kind.null, .string] → v.literal.value.kind = .string := by
        intro h
        simp only [List.mem_cons, List.not_mem_nil, or_false] at h
        rcases h with h | h
        · cases hl : v.literal.value with
          | null => exact absurd hl (by simpa using hne)
          | _ => rw [hl] at h; cases h
        · exact h
      refine ((tells_bytes [.null, .string] (by simp) v hk).mono (fun _ h => Or.inl h) fun _ h => h).bind fun b _ => ?_
      cases impls.fromBytes b with
      | ok x => exact .pure trivial
      | error m => exact (Tells.emit (Or.inr ⟨m, rfl⟩)).bind fun _ _ => .pure trivial

/-- **C58 fails** for `bytes`: when the type refuses the empty byte string, a number is reported a second
time, as if it were bytes that cannot be converted. -/
theorem c58_bytes_fails [Externals] (impls : Impls E S V) (m : Str) (h : impls.fromBytes [] = .error m) (span : S) (r : Radix)
    (digits : Str) (c : Ctx E S) :
    Reports (decodeValue .bytes false impls ⟨none, ⟨span, .int r digits⟩⟩) c
      [.scalarKind span .string .int, .conversion span (.text m)] := by
  have : decodeValue .bytes false impls ⟨none, ⟨span, .int r digits⟩⟩ c =
      .err (.conversion span (.text m)) (c.emitError (.scalarKind span .string .int)) := by
    simp only [decodeValue, decodeBytes]
    rw [bind_assoc, D.bind_ok (D.emit_eq _ _), pure_bind, h]
    rfl
  exact ⟨by rw [this]; simp, by rw [this]; simp [Out.errors]⟩

section
open Demo
/-- Both errors at once: `(i8)null` for a text. -/
example : Reports ((stringScalar (E := Unit)).decode ⟨some ⟨1, .builtin .i8⟩, ⟨2, .null⟩⟩) ⟨[], ()⟩
    [.typeName 1 (some (.builtin .i8)) ⟨[], true⟩ "String".toList, .scalarKind 2 .string .null] := ⟨(by intro h; cases h), rfl⟩
example : num.fromBytes [] = .error [] := rfl
example : (intScalar (E := Unit) (S := Nat) 64 .u8).Truthful [.int] .string [.builtin .u8] := c58_int_partial 64 .u8
example : (∀ t, Keeps ((intScalar (E := Unit) (S := Nat) 64 .u8).typeCheck t)) ∧
    ∀ l, Keeps ((intScalar (E := Unit) (S := Nat) 64 .u8).rawDecode l) := ⟨Keeps.numTypeCheck _ _, Keeps.intScalar _ _⟩
example : ∀ s c, ((SpanDecoder.same : SpanDecoder Unit Nat Nat) s c).2 = c := fun _ _ => rfl
end

/-! ### C59 -/

variable [Externals]

/-- **C59** for structs: whatever the derived decoder reports about a node is one of the complaints about its head, its
arguments, its properties or its children. -/
theorem c59_node {s : Struct E S V} (hk : s.Keeps) {takesP takesC} (hp : s.PropNames takesP) (hc : s.ChildNames takesC)
    (node : SpannedNode S) :
    OnlyReports (fun e => HeadComplaint s node e ∨ ContentComplaint s takesP takesC node e) (s.node node) := by
  refine Tells.only (Q := fun _ => True) ?_
  exact ((tells_specials hk node).mono (fun _ h => Or.inl h) fun _ h => h).bind fun _ _ =>
    ((tells_content hk hp hc node).mono (fun _ h => Or.inr h) fun _ h => h).bind fun _ _ => .pure trivial

/-- **C59** for the root of a document. -/
theorem c59_root {s : Struct E S V} (hk : s.Keeps) {takes} (hc : s.ChildNames takes) (nodes : List (SpannedNode S)) :
    OnlyReports (ChildComplaint s takes none nodes) (s.root nodes) :=
  Tells.only (Q := fun _ => True) ((tells_children hk hc none nodes).bind fun _ _ => .pure trivial)

/-- **C59** for a child that is unwrapped: the complaints about the content of the node, none about its head. -/
theorem c59_unwrap {s : Struct E S V} (hk : s.Keeps) {takesP takesC} (hp : s.PropNames takesP) (hc : s.ChildNames takesC)
    (f : AttrAccess) (node : SpannedNode S) : OnlyReports (ContentComplaint s takesP takesC node) (unwrapNode s f node) :=
  Tells.only (Q := fun _ => True) ((tells_content hk hp hc node).bind fun _ _ => .pure trivial)

/-- **C59** for flattened structs: what is reported when a property or a child is inserted. -/
theorem c59_flatten {s : Struct E S V} (hk : s.Keeps) {takesP takesC} (hp : s.PropNames takesP) (hc : s.ChildNames takesC)
    (self : FVal V) :
    (∀ name val, OnlyReports (InsertPropComplaint s takesP name val) (s.part.insertProperty self name val)) ∧
    ∀ node, OnlyReports (InsertChildComplaint s takesC self node) (s.part.insertChild self node) := by
  constructor
  · intro name val
    exact (tells_insertProperty name val s.properties hk.properties hp (fun i p e h1 h2 h3 h4 => .value h1 h2 h3 h4)
      (fun i p x e h1 h2 h3 h4 => .flattened h1 h2 h3 h4) self).only
  · intro node
    exact (tells_insertChild node self s.children hk.children hc (fun i p e h1 h2 h3 h4 => .node h1 h2 h3 h4)
      (fun i p e h1 h2 h3 h4 => .flag h1 h2 h3 h4) (fun i p x e h1 h2 h3 h4 => .flattened h1 h2 h3 h4)
      (fun i p h1 h2 h3 h4 => .duplicate h1 h2 h3 h4)).only

/-- The implementations a variant uses never take back errors, and its fields take the names given. -/
def Variant.Lawful (v : Variant E S V) (takesP : Prop' E S V → Str → Bool) (takesC : Child E S V → Str → Bool) : Prop :=
  match v.kind with
  | .unit => True
  | .nested _ inner => ∀ n, Keeps (inner n)
  | .tuple s => s.Keeps ∧ s.PropNames takesP ∧ s.ChildNames takesC

/-- **C59** for enums. -/
theorem c59_enum {variants : List (Variant E S V)} {takesP takesC} (hv : ∀ v ∈ variants, v.Lawful takesP takesC)
    (node : SpannedNode S) :
    OnlyReports (EnumComplaint variants (fun s => ContentComplaint s takesP takesC node) node) (enumNode variants node) := by
  refine Tells.only (Q := fun _ => True) ?_
  unfold enumNode
  generalize hnames : variants.map (·.name) = names
  have key : ∀ l, (∀ v ∈ l, v ∈ variants) → (∀ v ∈ variants, v.name = node.value.nodeName.value → v ∈ l) →
      Tells (EnumComplaint variants (fun s => ContentComplaint s takesP takesC node) node) (fun _ => True)
        (enumArms names node l) := by
    intro l
    induction l with
    | nil =>
      intro _ h
      exact .fail (.unknown fun v hv hn => by simpa using h v hv hn)
    | cons v l ih =>
      intro hl h
      have hmem := hl v (by simp)
      rw [enumArms]
      refine Tells.ite (fun he => ?_) fun he => ih (fun w hw => hl w (by simp [hw])) fun w hw hn => ?_
      · have hlaw := hv v hmem
        unfold Variant.Lawful at hlaw
        refine tells_variant v node ?_ (fun hu e hf => .flag hmem he.symm hu hf) (fun o inner hk hne e hr => ?_)
          fun s hs => ?_
        · cases hk : v.kind with
          | unit => trivial
          | nested o inner => rw [hk] at hlaw; exact hlaw
          | tuple s => rw [hk] at hlaw; exact hlaw.1
        · refine .nested hmem he.symm hk (fun ho => ?_) hr
          have := hne ho
          unfold nonEmptyNode at this
          simp only [Bool.or_eq_true, Bool.not_eq_eq_eq_not, Bool.not_true, List.isEmpty_eq_false_iff, Option.isSome_iff_ne_none,
            or_assoc] at this
          exact this
        · rw [hs] at hlaw
          exact (tells_content hlaw.1 hlaw.2.1 hlaw.2.2 node).mono (fun e he' => .tuple hmem he.symm hs he') fun _ h => h
      · rcases List.mem_cons.1 (h w hw hn) with rfl | hm
        · exact absurd hn.symm he
        · exact hm
  exact key variants (fun _ h => h) fun v h _ => h

/-- **C59**, put together: when the decoders of the parts report only what is true of the parts, this holds of what is
reported by the whole. -/
theorem c59_trans {P : DErr S → Prop} {d : D E S α} (h : OnlyReports P d) {e : DErr S} (he : ReportedBy d e) : P e :=
  h.reported he

/-- **C59** for `parse`: every decode error that is returned is one of the complaints about the children of the document,
when the caller of `parse_with_context` has not recorded errors in the context. -/
theorem c59_parse {Ty : TypeId → Type} {s : Struct (Extensions Ty) (Sp Nat) V} (hk : s.Keeps) {takes} (hc : s.ChildNames takes)
    (setCtx : Ctx (Extensions Ty) (Sp Nat) → Ctx (Extensions Ty) (Sp Nat)) (hs : (setCtx Ctx.new).errors = [])
    (text : Str) (es : List (AnyErr Nat)) (h : parseWithContext setCtx s.root text = some (.error es)) (e : DErr (Sp Nat))
    (he : .decode e ∈ es) : ∃ doc, parseAst text = some (.ok doc) ∧ ChildComplaint s takes none doc.nodes e := by
  rw [c34_error_iff] at h
  rcases h with ⟨pes, -, rfl⟩ | ⟨doc, hd, h⟩
  · simp at he
  · refine ⟨doc, hd, ?_⟩
    have ho := c59_root hk hc doc.nodes (setCtx Ctx.new)
    rcases h with ⟨v, c, h1, -, rfl⟩ | ⟨e', c, h1, rfl⟩
    all_goals
      obtain ⟨fs, ⟨-, hf⟩, hp⟩ := ho (by rw [h1]; simp)
      rw [h1, hs, List.nil_append] at hf
      simp only [Out.errors] at hf
      rw [List.mem_map] at he
      obtain ⟨e'', hm, h2⟩ := he
      cases h2
      rw [hf] at hm
      exact hp _ hm

section
open Demo
/-- The node `k "x" p=true { v 1; v }`. -/
def badSample : SpannedNode Nat :=
  ⟨77, .mk none ⟨1, ['k']⟩ [⟨none, ⟨2, .string ['x']⟩⟩] [(⟨3, ['p']⟩, ⟨none, ⟨4, .bool true⟩⟩)]
    (some ⟨0, [⟨5, .mk none ⟨6, ['v']⟩ [⟨none, ⟨7, .int .dec ['1']⟩⟩] [] none⟩, ⟨8, .mk none ⟨9, ['v']⟩ [] [] none⟩]⟩)⟩

/-- Five errors are reported about it. -/
example : Reports (outer.node badSample) ⟨[], ()⟩
    [.scalarKind 2 .string .string, .scalarKind 4 .string .bool,
     .unexpected 7 "argument".toList "unexpected argument".toList,
     .unexpected 9 "node".toList "duplicate node `v`, single node expected".toList,
     .missing 77 "child node `c` is required".toList] := ⟨(by intro h; cases h), rfl⟩
example : OnlyReports (fun e => HeadComplaint outer badSample e ∨ ContentComplaint outer takesProp takesChild badSample e)
    (outer.node badSample) := c59_node outer_keeps outer_propNames outer_childNames _
/-- `inner` can be the root of a document. -/
example : OnlyReports (ChildComplaint inner takesChild none [nd 'z']) (inner.root [nd 'z']) :=
  c59_root inner_keeps inner_childNames _
example : Reports (inner.root [nd 'z']) ⟨[], ()⟩ [.unexpected 0 "node".toList "unexpected node `z`".toList] :=
  ⟨(by intro h; cases h), rfl⟩
/-- The enum with a variant of each kind. -/
example : ∀ v ∈ ([⟨['A'], ['a'], .unit⟩, ⟨['B'], ['b'], .nested true num.node⟩, ⟨['C'], ['c'], .tuple outer⟩] :
    List (Variant Unit Nat Int)), v.Lawful takesProp takesChild := by
  intro v hv
  simp only [List.mem_cons, List.not_mem_nil, or_false] at hv
  rcases hv with rfl | rfl | rfl
  · trivial
  · exact num_keeps.node
  · exact ⟨outer_keeps, outer_propNames, outer_childNames⟩
example {Ty : TypeId → Type} : (id (Ctx.new : Ctx (Extensions Ty) (Sp Nat))).errors = [] := rfl
/-- What the inner struct says when a flag comes twice. -/
example : Reports (inner.part.insertChild (.record [(fld 'u', .none), (fld 'x', .none), (fld 'y', .bool true)]) (nd 'y')) ⟨[], ()⟩
    [.unexpected 0 "node".toList "duplicate node `y`, single node expected".toList] := ⟨(by intro h; cases h), rfl⟩
end

end Knuffel
