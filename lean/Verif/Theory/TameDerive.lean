import Verif.Theory.Tame
import Verif.Model.Convert
import Verif.Model.ConvertAst
import Verif.Model.Containers
/-!
# What is derived for a declaration is tame
-/

namespace Knuffel
variable {E S V X T α β : Type}

/-- If there is a result, it satisfies `P`. -/
def OkAll (P : α → Prop) (r : Except Str α) : Prop := ∀ a, r = .ok a → P a

theorem OkAll.pure {P : α → Prop} {a : α} (h : P a) : OkAll P (Pure.pure a) := by rintro _ ⟨⟩; exact h
theorem OkAll.ok {P : α → Prop} {a : α} (h : P a) : OkAll P (.ok a) := by rintro _ ⟨⟩; exact h
theorem OkAll.error {P : α → Prop} {m : Str} : OkAll P (.error m) := by rintro _ ⟨⟩
theorem OkAll.bind {P : α → Prop} {Q : β → Prop} {x : Except Str α} {f : α → Except Str β} (h : OkAll P x)
    (hf : ∀ a, P a → OkAll Q (f a)) : OkAll Q (x >>= f) := by
  cases x with
  | error e => exact OkAll.error
  | ok a => exact hf a (h a rfl)
theorem OkAll.any {x : Except Str α} : OkAll (fun _ => True) x := fun _ _ => trivial

theorem forall_cons {P : α → Prop} {a : α} {l : List α} (ha : P a) (hl : ∀ x ∈ l, P x) : ∀ x ∈ a :: l, P x := by
  intro x hx
  rcases List.mem_cons.1 hx with rfl | hx
  · exact ha
  · exact hl x hx

/-- The implementations at all levels of the attributes. -/
def FieldAttrs.Tame : FieldAttrs E S V → Prop
  | .plain a => a.impls.Tame
  | .unwrapped a inner => a.impls.Tame ∧ inner.Tame

theorem Struct.tame_empty : (({} : Struct E S V)).Tame := by
  constructor <;> simp

variable [Externals]

theorem tame_unwrapNode {s : Struct E S V} (h : s.Tame) (f : AttrAccess) (n : SpannedNode S) : Tame (unwrapNode s f n) :=
  (Tame.decodeContent h n).bind fun _ => Tame.pure _

theorem tame_addFieldWith {b : Struct E S V} (hb : b.Tame) (field : AttrAccess) (o bl : Bool) {a : PlainAttrs E S V}
    (ha : a.impls.Tame) (u : Bool) {d : Except Str (NodeDecoder E S (FVal V))} (hd : OkAll (fun d => ∀ n, Tame (d n)) d) :
    OkAll Struct.Tame (addFieldWith b field o bl a u d) := by
  have second : ∀ (child : Bool) (b : Struct E S V), b.Tame → OkAll Struct.Tame
      (if child then do
        errPair b.varChildren "extra `flatten(child)` after capture all `children`"
        pure { b with children := b.children ++
          [{ field := field, name := [], option := o, mode := .flatten, default := none, decoder := a.impls.node, impls := a.impls }] }
      else pure b) := by
    intro child b hb
    split
    · refine OkAll.any.bind fun _ _ => OkAll.pure { hb with children := fun f hf => ?_ }
      rcases List.mem_append.1 hf with h | h
      · exact hb.children f h
      · cases List.mem_singleton.1 h; exact ⟨ha, ha.node⟩
    · exact OkAll.pure hb
  unfold addFieldWith
  dsimp only
  split
  · refine OkAll.any.bind fun _ _ => OkAll.pure { hb with arguments := fun f hf => ?_ }
    rcases List.mem_append.1 hf with h | h
    · exact hb.arguments f h
    · cases List.mem_singleton.1 h; exact ha
  · exact OkAll.any.bind fun _ _ => OkAll.pure { hb with varArgs := fun f hf => by cases hf; exact ha }
  · refine OkAll.any.bind fun _ _ => ?_
    split <;> refine OkAll.any.bind fun n _ => OkAll.pure { hb with properties := fun f hf => ?_ } <;>
    · rcases List.mem_append.1 hf with h | h
      · exact hb.properties f h
      · cases List.mem_singleton.1 h; exact ha
  · exact OkAll.any.bind fun _ _ => OkAll.pure { hb with varProps := fun f hf => by cases hf; exact ha }
  · refine OkAll.any.bind fun _ _ => OkAll.any.bind fun _ _ => ?_
    split <;> refine OkAll.any.bind fun n _ => hd.bind fun d hd => OkAll.pure { hb with children := fun f hf => ?_ } <;>
    · rcases List.mem_append.1 hf with h | h
      · exact hb.children f h
      · cases List.mem_singleton.1 h; exact ⟨ha, hd⟩
  · refine OkAll.any.bind fun _ _ => OkAll.any.bind fun _ _ => hd.bind fun d hd =>
      OkAll.pure { hb with children := fun f hf => ?_ }
    rcases List.mem_append.1 hf with h | h
    · exact hb.children f h
    · cases List.mem_singleton.1 h; exact ⟨ha, hd⟩
  · exact OkAll.any.bind fun _ _ => OkAll.any.bind fun _ _ => hd.bind fun d hd =>
      OkAll.pure { hb with varChildren := fun f hf => by cases hf; exact hd }
  · split <;> refine OkAll.any.bind fun _ _ => ?_
    · refine OkAll.any.bind fun _ _ => ?_
      split
      · refine OkAll.any.bind fun _ _ => second _ _ { hb with properties := fun f hf => ?_ }
        rcases List.mem_append.1 hf with h | h
        · exact hb.properties f h
        · cases List.mem_singleton.1 h; exact ha
      · exact second _ _ hb
    · split
      · refine OkAll.any.bind fun _ _ => second _ _ { hb with properties := fun f hf => ?_ }
        rcases List.mem_append.1 hf with h | h
        · exact hb.properties f h
        · cases List.mem_singleton.1 h; exact ha
      · exact second _ _ hb
  · refine OkAll.any.bind fun _ _ => OkAll.pure { hb with spans := fun f hf => ?_ }
    rcases List.mem_append.1 hf with h | h
    · exact hb.spans f h
    · cases List.mem_singleton.1 h; exact ha
  · exact OkAll.any.bind fun _ _ => OkAll.pure { hb with }
  · exact OkAll.any.bind fun _ _ => OkAll.pure { hb with }
  · exact OkAll.pure { hb with }

theorem tame_unwrapFn (field : AttrAccess) (a : FieldAttrs E S V) (h : a.Tame) :
    OkAll (fun d => ∀ n, Tame (d n)) (unwrapFn field a) := by
  induction a generalizing field with
  | plain a =>
    unfold unwrapFn
    split <;> first | exact OkAll.error | skip
    exact (tame_addFieldWith Struct.tame_empty field false false h false (OkAll.ok (Impls.Tame.node h))).bind fun s hs =>
      OkAll.pure fun n => tame_unwrapNode hs _ n
  | unwrapped a inner ih =>
    unfold unwrapFn
    split <;> first | exact OkAll.error | skip
    exact (tame_addFieldWith Struct.tame_empty field false false h.1 true (ih _ h.2)).bind fun s hs =>
      OkAll.pure fun n => tame_unwrapNode hs _ n

theorem tame_addField {b : Struct E S V} (hb : b.Tame) (field : AttrAccess) (o bl : Bool) (a : FieldAttrs E S V) (h : a.Tame) :
    OkAll Struct.Tame (addField b field o bl a) := by
  cases a with
  | plain a => exact tame_addFieldWith hb field o bl h false (OkAll.ok (Impls.Tame.node h))
  | unwrapped a inner => exact tame_addFieldWith hb field o bl h.1 true (tame_unwrapFn _ inner h.2)

theorem tame_new {l : List (FieldDef E S V)} (h : ∀ f ∈ l, f.attrs.Tame) : OkAll Struct.Tame (Struct.new l) := by
  unfold Struct.new
  have : ∀ b : Struct E S V, b.Tame → OkAll Struct.Tame (l.foldlM (fun b f => addField b f.field f.isOption f.isBool f.attrs) b) := by
    induction l with
    | nil => exact fun b hb => OkAll.pure hb
    | cons f l ih =>
      intro b hb
      rw [List.foldlM_cons]
      exact (tame_addField hb _ _ _ _ (h f (by simp))).bind fun b' hb' => ih (fun g hg => h g (by simp [hg])) b' hb'
  exact this _ Struct.tame_empty

omit [Externals] in
theorem tame_withImpls (impls : Nat → Impls E S V) (eval : X → FVal V) (h : ∀ k, (impls k).Tame) :
    ∀ (k : Nat) (a : RawAttrs X), (a.withImpls impls eval k).Tame
  | k, ⟨_, _, none, _⟩ => h k
  | k, ⟨_, _, some u, _⟩ => ⟨h k, tame_withImpls impls eval h (k + 1) u⟩

omit [Externals] in
theorem tame_fieldDefs (syn : Syn X T) (eval : X → FVal V) (idx : Nat) (fs : List (FieldSyn E S V))
    (h : ∀ f ∈ fs, ∀ k, (f.impls k).Tame) : OkAll (fun l => ∀ d ∈ l, d.attrs.Tame) (fieldDefs syn eval idx fs) := by
  induction fs generalizing idx with
  | nil => exact OkAll.ok (by simp)
  | cons f fs ih =>
    unfold fieldDefs
    refine OkAll.bind (P := fun d => d.attrs.Tame) ?_ fun d hd => (ih (idx + 1) fun g hg => h g (by simp [hg])).bind fun ds hds =>
      OkAll.pure (forall_cons hd hds)
    unfold FieldSyn.toDef
    exact OkAll.any.bind fun _ _ => OkAll.any.bind fun a _ => OkAll.pure (tame_withImpls _ _ (h f (by simp)) 0 a)

theorem tame_parse (syn : Syn X T) (eval : X → FVal V) (fs : List (FieldSyn E S V)) (h : ∀ f ∈ fs, ∀ k, (f.impls k).Tame) :
    OkAll Struct.Tame (Struct.parse syn eval fs) :=
  (tame_fieldDefs syn eval 0 fs h).bind fun _ hl => tame_new hl

/-- The fields of a variant. -/
def VariantFields.Tame : VariantFields E S V → Prop
  | .unit => True
  | .unnamed fs => ∀ f ∈ fs, f.attrs.Tame
  | .named fs => ∀ f ∈ fs, f.attrs.Tame

omit [Externals] in
theorem FieldAttrs.Tame.base {a : FieldAttrs E S V} (h : a.Tame) : a.base.impls.Tame := by
  cases a with
  | plain a => exact h
  | unwrapped a _ => exact h.1

/-- The fields that play no role. -/
theorem extra_addFieldWith {b : Struct E S V} (hb : ∀ f ∈ b.extraFields, f.impls.Tame) (field : AttrAccess) (o bl : Bool)
    {a : PlainAttrs E S V} (ha : a.impls.Tame) (u : Bool) (d : Except Str (NodeDecoder E S (FVal V))) :
    OkAll (fun s => ∀ f ∈ s.extraFields, f.impls.Tame) (addFieldWith b field o bl a u d) := by
  have second : ∀ (child : Bool) (b : Struct E S V), (∀ f ∈ b.extraFields, f.impls.Tame) → OkAll (fun s => ∀ f ∈ s.extraFields, f.impls.Tame)
      (if child then do
        errPair b.varChildren "extra `flatten(child)` after capture all `children`"
        pure { b with children := b.children ++
          [{ field := field, name := [], option := o, mode := .flatten, default := none, decoder := a.impls.node, impls := a.impls }] }
      else pure b) := by
    intro child b hb
    split
    · exact OkAll.any.bind fun _ _ => OkAll.pure hb
    · exact OkAll.pure hb
  unfold addFieldWith
  dsimp only
  split
  · exact OkAll.any.bind fun _ _ => OkAll.pure hb
  · exact OkAll.any.bind fun _ _ => OkAll.pure hb
  · refine OkAll.any.bind fun _ _ => ?_
    split <;> exact OkAll.any.bind fun _ _ => OkAll.pure hb
  · exact OkAll.any.bind fun _ _ => OkAll.pure hb
  · refine OkAll.any.bind fun _ _ => OkAll.any.bind fun _ _ => ?_
    split <;> exact OkAll.any.bind fun _ _ => OkAll.any.bind fun _ _ => OkAll.pure hb
  · exact OkAll.any.bind fun _ _ => OkAll.any.bind fun _ _ => OkAll.any.bind fun _ _ => OkAll.pure hb
  · exact OkAll.any.bind fun _ _ => OkAll.any.bind fun _ _ => OkAll.any.bind fun _ _ => OkAll.pure hb
  · split <;> refine OkAll.any.bind fun _ _ => ?_
    · refine OkAll.any.bind fun _ _ => ?_
      split
      · exact OkAll.any.bind fun _ _ => second _ _ hb
      · exact second _ _ hb
    · split
      · exact OkAll.any.bind fun _ _ => second _ _ hb
      · exact second _ _ hb
  · exact OkAll.any.bind fun _ _ => OkAll.pure hb
  · exact OkAll.any.bind fun _ _ => OkAll.pure hb
  · exact OkAll.any.bind fun _ _ => OkAll.pure hb
  · refine OkAll.pure fun f hf => ?_
    rcases List.mem_append.1 hf with h | h
    · exact hb f h
    · cases List.mem_singleton.1 h; exact ha

theorem extra_new {l : List (FieldDef E S V)} (h : ∀ f ∈ l, f.attrs.Tame) :
    OkAll (fun s => ∀ f ∈ s.extraFields, f.impls.Tame) (Struct.new l) := by
  unfold Struct.new
  have : ∀ b : Struct E S V, (∀ f ∈ b.extraFields, f.impls.Tame) → OkAll (fun s => ∀ f ∈ s.extraFields, f.impls.Tame)
      (l.foldlM (fun b f => addField b f.field f.isOption f.isBool f.attrs) b) := by
    induction l with
    | nil => exact fun b hb => OkAll.pure hb
    | cons f l ih =>
      intro b hb
      rw [List.foldlM_cons]
      refine OkAll.bind (P := fun s => ∀ f ∈ s.extraFields, f.impls.Tame) ?_ fun b' hb' => ih (fun g hg => h g (by simp [hg])) b' hb'
      have hf := h f (by simp)
      cases ha : f.attrs with
      | plain a => rw [ha] at hf; exact extra_addFieldWith hb _ _ _ hf _ _
      | unwrapped a inner => rw [ha] at hf; exact extra_addFieldWith hb _ _ _ hf.1 _ _
  exact this _ (by simp)

theorem tame_kind {v : VariantFields E S V} (h : v.Tame) (ident name : Str) :
    OkAll (fun k => Variant.Tame ⟨ident, name, k⟩) v.kind := by
  cases v with
  | unit => exact OkAll.ok trivial
  | named _ => exact OkAll.error
  | unnamed fs =>
    unfold VariantFields.kind
    refine OkAll.bind (P := fun s : Struct E S V => s.Tame ∧ ∀ f ∈ s.extraFields, f.impls.Tame)
      (fun s hs => ⟨tame_new h s hs, extra_new h s hs⟩) fun s hs => ?_
    split
    · rename_i f _ hf
      exact OkAll.pure (hs.2 f (by simp [hf])).node
    · exact OkAll.pure hs.1

theorem tame_enumVariants {l : List (VariantDef E S V)} (h : ∀ d ∈ l, d.fields.Tame) :
    OkAll (fun vs => ∀ v ∈ vs, v.Tame) (enumVariants l) := by
  induction l with
  | nil => exact OkAll.ok (by simp)
  | cons d ds ih =>
    have ih := ih fun x hx => h x (by simp [hx])
    unfold enumVariants
    split
    · exact ih
    · exact (tame_kind (h d (by simp)) d.ident (Externals.kebab d.ident)).bind fun k hk => ih.bind fun vs hvs =>
        OkAll.pure (forall_cons hk hvs)

omit [Externals] in
theorem tame_variantDefs (syn : Syn X T) (eval : X → FVal V) (vs : List (VariantSyn E S V))
    (h : ∀ v ∈ vs, ∀ f ∈ v.fields.fields, ∀ k, (f.impls k).Tame) :
    OkAll (fun l => ∀ d ∈ l, d.fields.Tame) (variantDefs syn eval vs) := by
  induction vs with
  | nil => exact OkAll.ok (by simp)
  | cons v vs ih =>
    have hv := h v (by simp)
    unfold variantDefs
    refine OkAll.any.bind fun _ _ => OkAll.any.bind fun skip _ => OkAll.bind (P := VariantFields.Tame) ?_ fun fl hfl =>
      (ih fun w hw => h w (by simp [hw])).bind fun ds hds =>
        OkAll.pure (forall_cons hfl hds)
    unfold VariantSyn.kept
    split
    · exact OkAll.ok trivial
    · cases hf : v.fields with
      | named fs => rw [hf] at hv; exact (tame_fieldDefs syn eval 0 fs hv).bind fun ds hds => OkAll.pure hds
      | unnamed fs => rw [hf] at hv; exact (tame_fieldDefs syn eval 0 fs hv).bind fun ds hds => OkAll.pure hds
      | unit => exact OkAll.ok trivial

omit [Externals] in
theorem tame_newTypeNode {inner : NodeDecoder E S (FVal V)} (h : ∀ n, Tame (inner n)) (n : SpannedNode S) :
    Tame (newTypeNode inner n) := by
  unfold newTypeNode
  exact Tame.ite ((h n).bind fun _ => Tame.pure _) (Tame.pure _)

theorem tame_arm {v : Variant E S V} (h : v.Tame) (n : SpannedNode S) : Tame (v.arm n) := by
  unfold Variant.arm
  unfold Variant.Tame at h
  split
  · exact (Tame.checkFlagNode _).bind fun _ => Tame.pure _
  · rename_i hk; rw [hk] at h; exact (h n).bind fun _ => Tame.pure _
  · rename_i hk; rw [hk] at h; exact Tame.ite ((h n).bind fun _ => Tame.pure _) (Tame.pure _)
  · rename_i hk; rw [hk] at h; exact (Tame.decodeContent h n).bind fun _ => Tame.pure _

theorem tame_enumArms (names : List Str) (n : SpannedNode S) (l : List (Variant E S V)) (h : ∀ v ∈ l, v.Tame) :
    Tame (enumArms names n l) := by
  induction l with
  | nil => exact Tame.fail _
  | cons v vs ih => exact Tame.ite (tame_arm (h v (by simp)) n) (ih fun w hw => h w (by simp [hw]))

/-- What a definition consists of. -/
def Definition.Tame : Definition E S V T → Prop
  | .unitStruct _ s => s.Tame
  | .tupleStruct _ s => s.Tame
  | .newType _ _ inner => ∀ n, Knuffel.Tame (inner n)
  | .struct _ s => s.Tame
  | .enum _ vs => ∀ v ∈ vs, v.Tame

theorem tame_definition (syn : Syn X T) (eval : X → FVal V) (item : Item E S V)
    (h : ∀ f ∈ item.fields, ∀ k, (f.impls k).Tame) : OkAll Definition.Tame (Definition.parse syn eval item) := by
  cases item with
  | other => exact OkAll.error
  | enum attrs vs =>
    unfold Definition.parse
    exact OkAll.any.bind fun _ _ => OkAll.any.bind fun _ _ =>
      (tame_variantDefs syn eval vs fun v hv f hf => h f (List.mem_flatMap.2 ⟨v, hv, hf⟩)).bind fun ds hds =>
        (tame_enumVariants hds).bind fun vs hvs => OkAll.pure hvs
  | struct attrs fields =>
    unfold Definition.parse
    refine OkAll.any.bind fun _ _ => OkAll.any.bind fun _ _ => ?_
    cases fields with
    | named fs => exact (tame_parse syn eval fs h).bind fun s hs => OkAll.pure hs
    | unit => exact (tame_parse syn eval _ (by simp)).bind fun s hs => OkAll.pure hs
    | unnamed fs =>
      refine OkAll.bind (P := fun s : Struct E S V => s.Tame ∧ ∀ f ∈ s.extraFields, f.impls.Tame) ?_ fun s hs => ?_
      · exact (tame_fieldDefs syn eval 0 fs h).bind fun _ hl s hs => ⟨tame_new hl s hs, extra_new hl s hs⟩
      · split
        · rename_i f _ hf
          exact OkAll.pure (hs.2 f (by simp [hf])).node
        · exact OkAll.pure hs.1

theorem tame_definition_node {d : Definition E S V T} (h : d.Tame) : OkAll (fun dec => ∀ n, Tame (dec n)) d.node := by
  unfold Definition.node
  split
  · exact OkAll.ok fun n => Struct.Tame.node h n
  · exact OkAll.ok fun n => Struct.Tame.node h n
  · split
    · exact OkAll.ok fun n => Struct.Tame.node h n
    · exact OkAll.error
  · exact OkAll.ok fun n => tame_newTypeNode h n
  · exact OkAll.error
  · split
    · exact OkAll.ok fun n => tame_enumArms _ n _ h
    · exact OkAll.error

/-! ## Scalars and containers -/

omit [Externals]

theorem tame_provided {tc : Option (Spanned TypeName S) → D E S Unit} {raw : Spanned Literal S → D E S α}
    (ht : ∀ t, Tame (tc t)) (hr : ∀ l, Tame (raw l)) (v : Value S) : Tame ((Scalar.provided tc raw).decode v) :=
  (ht v.typeName).bind fun _ => hr v.literal

theorem tame_map (f : α → β) {x : D E S α} (h : Tame x) : Tame (x.map f) := h.bind fun _ => Tame.pure _

theorem tame_vecLoop {d : NodeDecoder E S α} (h : ∀ n, Tame (d n)) (ns : List (SpannedNode S)) (acc : List α) :
    Tame (vecLoop d ns acc) := by
  induction ns generalizing acc with
  | nil => exact Tame.pure _
  | cons n ns ih =>
    intro es ext
    have h0 := h n es ext
    simp only [vecLoop, h0.2]
    cases hd : d n ⟨[], ext⟩ with
    | panic => rw [hd] at h0; exact h0.1.elim
    | ok a c =>
      rw [hd] at h0
      obtain ⟨ce, cx⟩ := c
      have hx : cx = ext := h0.1
      subst hx
      simp only [Out.after]
      have h1 := ih (acc ++ [a]) ce cx
      have h2 := ih (acc ++ [a]) (es ++ ce) cx
      rw [h1.2, h2.2]
      cases hv : vecLoop d ns (acc ++ [a]) ⟨[], cx⟩ <;> rw [hv] at h1 <;> simp_all [Out.after, Out.Leaves]
    | err e c =>
      rw [hd] at h0
      obtain ⟨ce, cx⟩ := c
      have hx : cx = ext := h0.1
      subst hx
      simp only [Out.after, Ctx.emitError]
      have h1 := ih acc (ce ++ [e]) cx
      have h2 := ih acc (es ++ ce ++ [e]) cx
      rw [h1.2, h2.2]
      cases hv : vecLoop d ns acc ⟨[], cx⟩ <;> rw [hv] at h1 <;> simp_all [Out.after, Out.Leaves]

theorem tame_cloneAs {T : Type} {ds : SpanDecoder E S T} (h : ∀ s, Tame (ds.run s)) (x : Spanned α S) : Tame (x.cloneAs ds) :=
  (h x.span).bind fun _ => Tame.pure _

theorem tame_cloneOpt {T : Type} {ds : SpanDecoder E S T} (h : ∀ s, Tame (ds.run s)) (x : Option (Spanned α S)) :
    Tame (cloneOpt ds x) := by
  cases x with
  | none => exact Tame.pure _
  | some n => exact (tame_cloneAs h n).bind fun _ => Tame.pure _

theorem tame_value {T : Type} {ds : SpanDecoder E S T} (h : ∀ s, Tame (ds.run s)) (v : Value S) :
    Tame ((valueScalar ds).decode v) :=
  (tame_cloneOpt h v.typeName).bind fun _ => (tame_cloneAs h v.literal).bind fun _ => Tame.pure _

theorem tame_astProperties {T : Type} {ds : SpanDecoder E S T} (h : ∀ s, Tame (ds.run s)) (ps : List (Spanned Str S × Value S)) :
    Tame (astProperties ds ps) := by
  unfold astProperties
  exact (Tame.collect (fun p : Spanned Str S × Value S => (tame_cloneAs h p.1).bind fun _ => (tame_value h p.2).bind fun _ => Tame.pure _)).bind fun _ => Tame.pure _

mutual
theorem tame_astNode {T : Type} {ds : SpanDecoder E S T} (h : ∀ s, Tame (ds.run s)) : ∀ n : Node S, Tame (astNode ds n)
  | .mk t n a p c => by
    unfold astNode
    exact (tame_cloneOpt h t).bind fun _ => (tame_cloneAs h n).bind fun _ => (Tame.collect (tame_value h)).bind fun _ =>
      (tame_astProperties h p).bind fun _ => (tame_astChildren h c).bind fun _ => Tame.pure _
theorem tame_astChildren {T : Type} {ds : SpanDecoder E S T} (h : ∀ s, Tame (ds.run s)) :
    ∀ c : Option (Spanned (List (Spanned (Node S) S)) S), Tame (astChildren ds c)
  | none => by unfold astChildren; exact Tame.pure _
  | some ⟨s, ns⟩ => by
    unfold astChildren
    exact (h s).bind fun _ => (tame_astNodes h ns).bind fun _ => Tame.pure _
theorem tame_astNodes {T : Type} {ds : SpanDecoder E S T} (h : ∀ s, Tame (ds.run s)) :
    ∀ ns : List (Spanned (Node S) S), Tame (astNodes ds ns)
  | [] => by unfold astNodes; exact Tame.pure _
  | ⟨s, n⟩ :: ns => by
    unfold astNodes
    exact (h s).bind fun _ => (tame_astNode h n).bind fun _ => (tame_astNodes h ns).bind fun _ => Tame.pure _
end

theorem tame_getMut (p : Ptr α) (h : p.kind = .box ∨ p.clones = 0) : Tame (p.getMut : D E S α) := by
  unfold Ptr.getMut
  split
  · exact Tame.pure _
  · rename_i hk
    exact (if_pos (h.resolve_left hk)).symm ▸ Tame.pure _

theorem tame_ptrPartial {d : Partial E S α} (h : ∀ x n, Tame (d.insertChild x n)) (h2 : ∀ x n v, Tame (d.insertProperty x n v))
    (p : Ptr α) (hp : p.kind = .box ∨ p.clones = 0) : (∀ n, Tame ((ptrPartial d).insertChild p n)) ∧
      ∀ n v, Tame ((ptrPartial d).insertProperty p n v) :=
  ⟨fun n => (tame_getMut p hp).bind fun x => (h x n).bind fun _ => Tame.pure _,
   fun n v => (tame_getMut p hp).bind fun x => (h2 x n v).bind fun _ => Tame.pure _⟩

theorem tame_numTypeCheck (m : BuiltinType) (r : Str) (t : Option (Spanned TypeName S)) : Tame (E := E) (numTypeCheck m r t) := by
  unfold numTypeCheck
  split
  · exact Tame.ite (Tame.emit _) (Tame.pure _)
  · exact Tame.pure _

theorem tame_noTypeCheck (r : Str) (t : Option (Spanned TypeName S)) : Tame (E := E) (noTypeCheck r t) := by
  unfold noTypeCheck
  split
  · exact Tame.emit _
  · exact Tame.pure _

theorem tame_textRaw (v : Spanned Literal S) : Tame (E := E) (textRaw v) := by
  unfold textRaw
  split
  · exact Tame.pure _
  · exact (Tame.emit _).bind fun _ => Tame.pure _

theorem tame_intRaw (ptr : Nat) (t : IntTy) (v : Spanned Literal S) : Tame ((intScalar (E := E) ptr t).rawDecode v) := by
  dsimp only [intScalar, Scalar.provided]
  split
  · split
    · exact Tame.pure _
    · exact (Tame.emit _).bind fun _ => Tame.pure _
  · exact (Tame.emit _).bind fun _ => Tame.pure _

theorem tame_floatRaw {F : Type} (t : FloatTy) (round : Str → F) (zero : F) (v : Spanned Literal S) :
    Tame ((floatScalar (E := E) t round zero).rawDecode v) := by
  dsimp only [floatScalar, Scalar.provided]
  split
  · exact Tame.ite (Tame.pure _) ((Tame.emit _).bind fun _ => Tame.pure _)
  · exact (Tame.emit _).bind fun _ => Tame.pure _

theorem tame_boolRaw (v : Spanned Literal S) : Tame ((boolScalar (E := E)).rawDecode v) := by
  dsimp only [boolScalar, Scalar.provided]
  split
  · exact Tame.pure _
  · exact (Tame.emit _).bind fun _ => Tame.pure _

end Knuffel
