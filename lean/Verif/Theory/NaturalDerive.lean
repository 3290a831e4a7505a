import Verif.Theory.Natural
/-!
# Derived decoders agree when the implementations of their fields do
-/

set_option linter.unusedSectionVars false

namespace Knuffel
variable {E S T V W α β γ δ : Type}

/-! ## Descriptions that agree -/

structure SpanField.Agrees (g : S → T) (h : V → W) (a : SpanField E S V) (b : SpanField E T W) : Prop where
  field : b.field = a.field
  impls : a.impls.Agrees g h b.impls

structure NodeNameField.Agrees (g : S → T) (h : V → W) (a : NodeNameField E S V) (b : NodeNameField E T W) : Prop where
  field : b.field = a.field
  impls : a.impls.Agrees g h b.impls

structure TypeNameField.Agrees (g : S → T) (h : V → W) (a : TypeNameField E S V) (b : TypeNameField E T W) : Prop where
  field : b.field = a.field
  option : b.option = a.option
  impls : a.impls.Agrees g h b.impls

structure Arg.Agrees (g : S → T) (h : V → W) (a : Arg E S V) (b : Arg E T W) : Prop where
  field : b.field = a.field
  option : b.option = a.option
  decode : b.decode = a.decode
  default : b.default = a.default.map (FVal.map h)
  impls : a.impls.Agrees g h b.impls

structure VarArgs.Agrees (g : S → T) (h : V → W) (a : VarArgs E S V) (b : VarArgs E T W) : Prop where
  field : b.field = a.field
  decode : b.decode = a.decode
  impls : a.impls.Agrees g h b.impls

structure Prop'.Agrees (g : S → T) (h : V → W) (a : Prop' E S V) (b : Prop' E T W) : Prop where
  field : b.field = a.field
  name : b.name = a.name
  option : b.option = a.option
  decode : b.decode = a.decode
  flatten : b.flatten = a.flatten
  default : b.default = a.default.map (FVal.map h)
  impls : a.impls.Agrees g h b.impls

structure VarProps.Agrees (g : S → T) (h : V → W) (a : VarProps E S V) (b : VarProps E T W) : Prop where
  field : b.field = a.field
  decode : b.decode = a.decode
  impls : a.impls.Agrees g h b.impls

structure Child.Agrees (g : S → T) (h : V → W) (a : Child E S V) (b : Child E T W) : Prop where
  field : b.field = a.field
  name : b.name = a.name
  option : b.option = a.option
  mode : b.mode = a.mode
  default : b.default = a.default.map (FVal.map h)
  decoder : NodeAgrees g (FVal.map h) a.decoder b.decoder
  impls : a.impls.Agrees g h b.impls

structure VarChildren.Agrees (g : S → T) (h : V → W) (a : VarChildren E S V) (b : VarChildren E T W) : Prop where
  field : b.field = a.field
  decoder : NodeAgrees g (FVal.map h) a.decoder b.decoder

structure ExtraField.Agrees (g : S → T) (h : V → W) (a : ExtraField E S V) (b : ExtraField E T W) : Prop where
  field : b.field = a.field
  option : b.option = a.option
  impls : a.impls.Agrees g h b.impls

structure Struct.Agrees (g : S → T) (h : V → W) (a : Struct E S V) (b : Struct E T W) : Prop where
  spans : Listwise (SpanField.Agrees g h) a.spans b.spans
  nodeNames : Listwise (NodeNameField.Agrees g h) a.nodeNames b.nodeNames
  typeNames : Listwise (TypeNameField.Agrees g h) a.typeNames b.typeNames
  arguments : Listwise (Arg.Agrees g h) a.arguments b.arguments
  varArgs : Optionwise (VarArgs.Agrees g h) a.varArgs b.varArgs
  properties : Listwise (Prop'.Agrees g h) a.properties b.properties
  varProps : Optionwise (VarProps.Agrees g h) a.varProps b.varProps
  children : Listwise (Child.Agrees g h) a.children b.children
  varChildren : Optionwise (VarChildren.Agrees g h) a.varChildren b.varChildren
  extraFields : Listwise (ExtraField.Agrees g h) a.extraFields b.extraFields

theorem Listwise.map_eq {R : α → β → Prop} {f : α → γ} {f' : β → γ} (hf : ∀ a b, R a b → f' b = f a) :
    ∀ {l : List α} {l' : List β}, Listwise R l l' → l'.map f' = l.map f
  | [], [], _ => rfl
  | _ :: _, _ :: _, hl => by simp [hf _ _ hl.1, hl.2.map_eq hf]
  | [], _ :: _, hl => hl.elim
  | _ :: _, [], hl => hl.elim

theorem Listwise.isEmpty {R : α → β → Prop} : ∀ {l : List α} {l' : List β}, Listwise R l l' → l'.isEmpty = l.isEmpty
  | [], [], _ => rfl
  | _ :: _, _ :: _, _ => rfl
  | [], _ :: _, hl => hl.elim
  | _ :: _, [], hl => hl.elim

theorem Listwise.append {R : α → β → Prop} : ∀ {l : List α} {l' : List β} {m m'}, Listwise R l l' →
    Listwise R m m' → Listwise R (l ++ m) (l' ++ m')
  | [], [], _, _, _, hm => hm
  | _ :: _, _ :: _, _, _, hl, hm => ⟨hl.1, hl.2.append hm⟩
  | [], _ :: _, _, _, hl, _ => hl.elim
  | _ :: _, [], _, _, hl, _ => hl.elim

theorem Listwise.single {R : α → β → Prop} {a b} (h : R a b) : Listwise R [a] [b] := ⟨h, trivial⟩

section
variable [Externals] {g : S → T} {h : V → W}

theorem Agrees.decodeValue {i : Impls E S V} {j : Impls E T W} (hi : i.Agrees g h j) (m o) (v : Value S) :
    Agrees g (FVal.map h) (decodeValue m o i v) (decodeValue m o j (v.mapSpan g)) := by
  obtain ⟨t, ⟨sp, l⟩⟩ := v
  cases m with
  | normal => exact hi.scalar.decode _
  | str =>
    cases o with
    | true =>
      refine (Agrees.strTypeCheck t).bind fun _ => ?_
      cases l with
      | string s =>
        exact (Agrees.liftConv (⟨sp, .string s⟩ : Spanned Literal S) (hi.fromStr s)).bind fun x =>
          Agrees.pure' (b := FVal.some (x.map h)) (by simp)
      | null => exact Agrees.pure' (b := FVal.none) (by simp)
      | _ => exact (Agrees.emit rfl).bind fun x => Agrees.pure' (b := FVal.none) (by simp)
    | false =>
      refine (Agrees.strTypeCheck t).bind fun _ => ?_
      cases l with
      | string s => exact Agrees.liftConv (⟨sp, .string s⟩ : Spanned Literal S) (hi.fromStr s)
      | _ => exact Agrees.fail rfl
  | bytes =>
    cases o with
    | true =>
      have hb : Agrees (E := E) g (FVal.map h) (do
            let b ← Knuffel.decodeBytes ⟨t, ⟨sp, l⟩⟩
            match i.fromBytes b with
            | .ok v => Pure.pure (.some v)
            | .error m => do
              D.emit (DErr.conv (⟨sp, l⟩ : Spanned Literal S) (.text m))
              Pure.pure .none) (do
            let b ← Knuffel.decodeBytes (Value.mapSpan g ⟨t, ⟨sp, l⟩⟩)
            match j.fromBytes b with
            | .ok v => Pure.pure (.some v)
            | .error m => do
              D.emit (DErr.conv (⟨g sp, l⟩ : Spanned Literal T) (.text m))
              Pure.pure .none) := by
        refine (Agrees.decodeBytes _).bind fun b => ?_
        rw [show j.fromBytes (id b) = _ from hi.fromBytes b]
        cases i.fromBytes b with
        | ok x => exact Agrees.pure' (b := FVal.some (x.map h)) (by simp)
        | error m => exact (Agrees.emit rfl).bind fun x => Agrees.pure' (b := FVal.none) (by simp)
      cases l with
      | null => exact Agrees.pure' (b := FVal.none) (by simp)
      | _ => exact hb
    | false =>
      exact (Agrees.decodeBytes _).bind fun b => Agrees.liftConv (⟨sp, l⟩ : Spanned Literal S) (hi.fromBytes b)

/-! ## Special fields -/

theorem Agrees.decodeSpans (n : SpannedNode S) : ∀ {l : List (SpanField E S V)} {l' : List (SpanField E T W)},
    Listwise (SpanField.Agrees g h) l l' → Agrees g (envMap h) (decodeSpans n l) (decodeSpans (mapNode g n) l')
  | [], [], _ => Agrees.pure _
  | f :: fs, f' :: fs', hl => by
    unfold Knuffel.decodeSpans
    rw [hl.1.field]
    exact (hl.1.impls.span.run n.span).bind fun _ => (Agrees.decodeSpans n hl.2).bind fun _ => Agrees.pure _
  | [], _ :: _, hl => hl.elim
  | _ :: _, [], hl => hl.elim

theorem Agrees.decodeNodeNames (n : SpannedNode S) :
    ∀ {l : List (NodeNameField E S V)} {l' : List (NodeNameField E T W)}, Listwise (NodeNameField.Agrees g h) l l' →
    Agrees g (envMap h) (decodeNodeNames n l) (decodeNodeNames (mapNode g n) l')
  | [], [], _ => Agrees.pure _
  | f :: fs, f' :: fs', hl => by
    unfold Knuffel.decodeNodeNames
    rw [hl.1.field, mapNode_nodeName]
    exact (Agrees.liftConv _ (hl.1.impls.fromStr _)).bind fun _ =>
      (Agrees.decodeNodeNames n hl.2).bind fun _ => Agrees.pure _
  | [], _ :: _, hl => hl.elim
  | _ :: _, [], hl => hl.elim

theorem Agrees.decodeTypeName (n : SpannedNode S) {f : TypeNameField E S V} {f' : TypeNameField E T W}
    (hf : f.Agrees g h f') : Agrees g (FVal.map h) (decodeTypeName n f) (decodeTypeName (mapNode g n) f') := by
  unfold Knuffel.decodeTypeName
  rw [mapNode_typeName, hf.option, missingIn_map]
  cases n.value.typeName with
  | none => exact Agrees.ite Iff.rfl (fun _ => Agrees.pure' (by simp)) fun _ => Agrees.fail rfl
  | some t => exact (Agrees.liftConv t (hf.impls.fromStr _)).bind fun _ => Agrees.pure' (by split <;> simp)

theorem Agrees.decodeTypeNames (n : SpannedNode S) :
    ∀ {l : List (TypeNameField E S V)} {l' : List (TypeNameField E T W)}, Listwise (TypeNameField.Agrees g h) l l' →
    Agrees g (envMap h) (decodeTypeNames n l) (decodeTypeNames (mapNode g n) l')
  | [], [], _ => Agrees.pure _
  | f :: fs, f' :: fs', hl => by
    unfold Knuffel.decodeTypeNames
    rw [hl.1.field]
    exact (Agrees.decodeTypeName n hl.1).bind fun _ => (Agrees.decodeTypeNames n hl.2).bind fun _ => Agrees.pure _
  | [], _ :: _, hl => hl.elim
  | _ :: _, [], hl => hl.elim

theorem Agrees.decodeSpecials {s : Struct E S V} {s' : Struct E T W} (hs : s.Agrees g h s') (n : SpannedNode S) :
    Agrees g (envMap h) (decodeSpecials s n) (decodeSpecials s' (mapNode g n)) := by
  unfold Knuffel.decodeSpecials
  rw [hs.typeNames.isEmpty, mapNode_typeName]
  refine (Agrees.decodeSpans n hs.spans).bind fun a => (Agrees.decodeNodeNames n hs.nodeNames).bind fun b =>
    (Agrees.decodeTypeNames n hs.typeNames).bind fun c => ?_
  cases s.typeNames.isEmpty with
  | false => exact Agrees.pure' (a := a ++ b ++ c) (by simp)
  | true =>
    cases n.value.typeName with
    | none => exact Agrees.pure' (a := a ++ b ++ c) (by simp)
    | some t => exact (Agrees.emit rfl).bind fun _ => Agrees.pure' (a := a ++ b ++ c) (by simp)

/-! ## Arguments -/

theorem Agrees.decodeArg (n : SpannedNode S) {a : Arg E S V} {a' : Arg E T W} (ha : a.Agrees g h a') (vs) :
    Agrees g (Prod.map (FVal.map h) (List.map (Value.mapSpan g))) (decodeArg n a vs)
      (decodeArg (mapNode g n) a' (vs.map (Value.mapSpan g))) := by
  unfold Knuffel.decodeArg
  rw [ha.default, ha.option, ha.decode, ha.field, missingIn_map]
  cases vs with
  | cons v rest => exact (Agrees.decodeValue ha.impls _ _ v).bind fun _ => Agrees.pure _
  | nil =>
    cases a.default with
    | some d => exact Agrees.pure _
    | none =>
      cases a.option with
      | true => exact Agrees.pure' (by simp)
      | false => exact Agrees.fail rfl

theorem Agrees.decodeArgList (n : SpannedNode S) :
    ∀ {l : List (Arg E S V)} {l' : List (Arg E T W)} (vs), Listwise (Arg.Agrees g h) l l' →
    Agrees g (Prod.map (envMap h) (List.map (Value.mapSpan g))) (decodeArgList n l vs)
      (decodeArgList (mapNode g n) l' (vs.map (Value.mapSpan g)))
  | [], [], _, _ => Agrees.pure _
  | f :: fs, f' :: fs', vs, hl => by
    unfold Knuffel.decodeArgList
    rw [hl.1.field]
    exact (Agrees.decodeArg n hl.1 vs).bind fun r => (Agrees.decodeArgList n r.2 hl.2).bind fun _ => Agrees.pure _
  | [], _ :: _, _, hl => hl.elim
  | _ :: _, [], _, hl => hl.elim

theorem Agrees.decodeArgs {s : Struct E S V} {s' : Struct E T W} (hs : s.Agrees g h s') (n : SpannedNode S) :
    Agrees g (envMap h) (decodeArgs s n) (decodeArgs s' (mapNode g n)) := by
  unfold Knuffel.decodeArgs
  rw [mapNode_arguments]
  refine (Agrees.decodeArgList n _ hs.arguments).bind fun r => ?_
  have hva := hs.varArgs
  obtain ⟨env, rest⟩ := r
  revert hva
  cases s.varArgs with
  | none =>
    cases s'.varArgs with
    | some _ => exact fun hva => hva.elim
    | none =>
      intro _
      cases rest with
      | nil => exact Agrees.pure _
      | cons v _ => exact Agrees.fail rfl
  | some va =>
    cases s'.varArgs with
    | none => exact fun hva => hva.elim
    | some va' =>
      intro hva
      have hva : va.Agrees g h va' := hva
      simp only [hva.field, hva.decode]
      exact (Agrees.collect (fun v => Agrees.decodeValue hva.impls _ _ v) rest).bind fun _ => Agrees.pure' (by simp)

/-! ## Properties -/

/-- Replace the leaves in the variables of a property field. -/
def PropState.map (h : V → W) (st : PropState V) : PropState W := ⟨st.fld.map h, st.seen⟩

theorem Prop'.Agrees.init {p : Prop' E S V} {p' : Prop' E T W} (hp : p.Agrees g h p') : p'.init = p.init.map h := by
  unfold Prop'.init PropState.map
  rw [hp.flatten]
  split <;> simp [hp.impls.default]

/-- Fields with their variables. -/
def PropsAgree (g : S → T) (h : V → W) (a : Prop' E S V × PropState V) (b : Prop' E T W × PropState W) : Prop :=
  a.1.Agrees g h b.1 ∧ b.2 = a.2.map h

theorem propsAgree_zip : ∀ {l : List (Prop' E S V)} {l' : List (Prop' E T W)} (sts : List (PropState V)),
    Listwise (Prop'.Agrees g h) l l' → Listwise (PropsAgree g h) (l.zip sts) (l'.zip (sts.map (PropState.map h)))
  | [], [], _, _ => trivial
  | _ :: _, _ :: _, [], _ => trivial
  | _ :: _, _ :: _, _ :: _, hl => ⟨⟨hl.1, rfl⟩, propsAgree_zip _ hl.2⟩
  | [], _ :: _, _, hl => hl.elim
  | _ :: _, [], _, hl => hl.elim

theorem propsAgree_snd {l : List (Prop' E S V × PropState V)} {l' : List (Prop' E T W × PropState W)}
    (hl : Listwise (PropsAgree g h) l l') : l'.map (·.2) = (l.map (·.2)).map (PropState.map h) := by
  rw [List.map_map]
  exact hl.map_eq fun _ _ hab => hab.2

theorem Agrees.propArms (k : Spanned Str S) (v : Value S) :
    ∀ {l : List (Prop' E S V × PropState V)} {l' : List (Prop' E T W × PropState W)}, Listwise (PropsAgree g h) l l' →
    Agrees g (Prod.map id (List.map (PropState.map h))) (propArms k v l) (propArms (k.mapSpan g) (v.mapSpan g) l')
  | [], [], _ => Agrees.pure _
  | (p, st) :: rest, (p', st') :: rest', hl => by
    have hp : p.Agrees g h p' := hl.1.1
    have hst : st' = st.map h := hl.1.2
    subst hst
    have hrest : rest'.map (·.2) = (rest.map (·.2)).map (PropState.map h) := propsAgree_snd hl.2
    unfold Knuffel.propArms
    rw [hp.flatten, hp.name, hp.decode, hp.option, hrest]
    refine Agrees.ite Iff.rfl (fun _ => ?_) fun _ => ?_
    · refine (hp.impls.part.insertProperty st.fld k v).bind fun r => Agrees.ite Iff.rfl (fun _ => Agrees.pure _) fun _ => ?_
      exact (Agrees.propArms k v hl.2).bind fun _ => Agrees.pure _
    · refine Agrees.ite Iff.rfl (fun _ => ?_) fun _ => ?_
      · exact (Agrees.decodeValue hp.impls _ _ v).bind fun x => Agrees.ite Iff.rfl (fun _ => Agrees.pure _) fun _ =>
          Agrees.pure' (by simp [PropState.map])
      · exact (Agrees.propArms k v hl.2).bind fun _ => Agrees.pure _
  | [], _ :: _, hl => hl.elim
  | _ :: _, [], hl => hl.elim

theorem Agrees.propLoop {s : Struct E S V} {s' : Struct E T W} (hs : s.Agrees g h s') :
    ∀ (ps : List (Spanned Str S × Value S)) (sts : List (PropState V)) (var : List (FVal V × FVal V)),
    Agrees g (Prod.map (List.map (PropState.map h)) (List.map (Prod.map (FVal.map h) (FVal.map h))))
      (propLoop s ps sts var)
      (propLoop s' (ps.map fun kv => (kv.1.mapSpan g, kv.2.mapSpan g)) (sts.map (PropState.map h))
        (var.map (Prod.map (FVal.map h) (FVal.map h))))
  | [], sts, var => Agrees.pure (sts, var)
  | (k, v) :: rest, sts, var => by
    rw [List.map_cons]
    unfold Knuffel.propLoop
    refine (Agrees.propArms k v (propsAgree_zip sts hs.properties)).bind fun r =>
      Agrees.ite Iff.rfl (fun _ => Agrees.propLoop hs rest _ _) fun _ => ?_
    have hvp := hs.varProps
    revert hvp
    cases s.varProps with
    | none =>
      cases s'.varProps with
      | some _ => exact fun hvp => hvp.elim
      | none => exact fun _ => Agrees.fail rfl
    | some vp =>
      cases s'.varProps with
      | none => exact fun hvp => hvp.elim
      | some vp' =>
        intro hvp
        have hvp : vp.Agrees g h vp' := hvp
        simp only [hvp.decode]
        refine (Agrees.liftConv k (hvp.impls.keyFromStr _)).bind fun x =>
          (Agrees.decodeValue hvp.impls _ _ v).bind fun y => ?_
        have := Agrees.propLoop hs rest r.2 (var ++ [(x, y)])
        simpa using this

theorem Agrees.finishProp (n : SpannedNode S) {p : Prop' E S V} {p' : Prop' E T W} (hp : p.Agrees g h p')
    (st : PropState V) : Agrees g (FVal.map h) (p.finish n st) (p'.finish (mapNode g n) (st.map h)) := by
  obtain ⟨fld, seen⟩ := st
  unfold Prop'.finish PropState.map
  rw [hp.flatten, hp.default, hp.option, hp.name, missingIn_map]
  refine Agrees.ite Iff.rfl (fun _ => Agrees.pure _) fun _ => ?_
  cases p.default with
  | none =>
    cases p.option with
    | true => exact Agrees.pure _
    | false =>
      cases fld <;> simp only [FVal.map_leaf, FVal.map_none, FVal.map_some, FVal.map_bool, FVal.map_list,
        FVal.map_pairs, FVal.map_record, FVal.map_variant, Option.map_none] <;>
        first | exact Agrees.pure _ | exact Agrees.fail rfl
  | some d =>
    cases p.option with
    | true => exact Agrees.pure' (by simp only []; split <;> rfl)
    | false =>
      cases fld <;> simp only [FVal.map_leaf, FVal.map_none, FVal.map_some, FVal.map_bool, FVal.map_list,
        FVal.map_pairs, FVal.map_record, FVal.map_variant, Option.map_some] <;> exact Agrees.pure _

theorem Agrees.finishProps (n : SpannedNode S) :
    ∀ {l : List (Prop' E S V × PropState V)} {l' : List (Prop' E T W × PropState W)}, Listwise (PropsAgree g h) l l' →
    Agrees g (envMap h) (finishProps n l) (finishProps (mapNode g n) l')
  | [], [], _ => Agrees.pure _
  | (p, st) :: rest, (p', st') :: rest', hl => by
    have hp : p.Agrees g h p' := hl.1.1
    have hst : st' = st.map h := hl.1.2
    subst hst
    unfold Knuffel.finishProps
    rw [hp.field]
    exact (Agrees.finishProp n hp st).bind fun _ => (Agrees.finishProps n hl.2).bind fun _ => Agrees.pure _
  | [], _ :: _, hl => hl.elim
  | _ :: _, [], hl => hl.elim

theorem Agrees.decodeProps {s : Struct E S V} {s' : Struct E T W} (hs : s.Agrees g h s') (n : SpannedNode S) :
    Agrees g (envMap h) (decodeProps s n) (decodeProps s' (mapNode g n)) := by
  unfold Knuffel.decodeProps
  rw [mapNode_properties]
  have hi : s'.properties.map (·.init) = (s.properties.map (·.init)).map (PropState.map h) := by
    rw [List.map_map]; exact hs.properties.map_eq fun _ _ hab => hab.init
  rw [hi]
  refine (Agrees.propLoop hs _ _ []).bind fun r => (Agrees.finishProps n (propsAgree_zip _ hs.properties)).bind fun env => ?_
  have hvp := hs.varProps
  revert hvp
  cases s.varProps with
  | none =>
    cases s'.varProps with
    | some _ => exact fun hvp => hvp.elim
    | none => exact fun _ => Agrees.pure _
  | some vp =>
    cases s'.varProps with
    | none => exact fun hvp => hvp.elim
    | some vp' =>
      intro hvp
      exact Agrees.pure' (by simp [show vp'.field = vp.field from hvp.field])

/-! ## Children -/

theorem Child.Agrees.init {c : Child E S V} {c' : Child E T W} (hc : c.Agrees g h c') : c'.init = c.init.map h := by
  unfold Child.init
  rw [hc.mode]
  cases c.mode <;> simp [hc.impls.default]

theorem FVal.map_isSome (x : FVal V) : (x.map h).isSome = x.isSome := by
  cases x <;> simp [FVal.isSome]

theorem FVal.map_push (x y : FVal V) : (x.map h).push (y.map h) = (x.push y).map h := by
  cases x <;> simp [FVal.push]

theorem duplicateNode_map {c : Child E S V} {c' : Child E T W} (hc : c.Agrees g h c') (n : SpannedNode S) :
    duplicateNode c' (mapNode g n) = (duplicateNode c n).mapSpan g := by
  unfold duplicateNode
  rw [hc.name, mapNode_nodeName]; rfl

/-- Fields with their variables. -/
def ChildrenAgree' (g : S → T) (h : V → W) (a : Child E S V × FVal V) (b : Child E T W × FVal W) : Prop :=
  a.1.Agrees g h b.1 ∧ b.2 = a.2.map h

theorem childrenAgree_zip : ∀ {l : List (Child E S V)} {l' : List (Child E T W)} (sts : List (FVal V)),
    Listwise (Child.Agrees g h) l l' → Listwise (ChildrenAgree' g h) (l.zip sts) (l'.zip (sts.map (FVal.map h)))
  | [], [], _, _ => trivial
  | _ :: _, _ :: _, [], _ => trivial
  | _ :: _, _ :: _, _ :: _, hl => ⟨⟨hl.1, rfl⟩, childrenAgree_zip _ hl.2⟩
  | [], _ :: _, _, hl => hl.elim
  | _ :: _, [], _, hl => hl.elim

theorem childrenAgree_snd {l : List (Child E S V × FVal V)} {l' : List (Child E T W × FVal W)}
    (hl : Listwise (ChildrenAgree' g h) l l') : l'.map (·.2) = (l.map (·.2)).map (FVal.map h) := by
  rw [List.map_map]
  exact hl.map_eq fun _ _ hab => hab.2

theorem Agrees.childArm {c : Child E S V} {c' : Child E T W} (hc : c.Agrees g h c') (fld : FVal V) (n : SpannedNode S) :
    Agrees g (FVal.map h) (childArm c fld n) (childArm c' (fld.map h) (mapNode g n)) := by
  unfold Knuffel.childArm
  rw [hc.mode, duplicateNode_map hc, FVal.map_isSome]
  cases c.mode with
  | multi => exact (hc.decoder n).bind fun x => Agrees.pure' (FVal.map_push _ _)
  | normal =>
    exact Agrees.ite Iff.rfl (fun _ => Agrees.fail rfl) fun _ => (hc.decoder n).bind fun x => Agrees.pure' (by simp)
  | flatten => exact Agrees.pure _
  | bool =>
    refine (Agrees.checkFlagNode n).bind fun _ => ?_
    cases fld with
    | bool b =>
      cases b with
      | true => exact (Agrees.emit rfl).bind fun _ => Agrees.pure' (by simp)
      | false => exact Agrees.pure' (by simp)
    | _ =>
      simp only [FVal.map_leaf, FVal.map_none, FVal.map_some, FVal.map_list,
        FVal.map_pairs, FVal.map_record, FVal.map_variant]
      exact Agrees.pure' (by simp)

theorem Agrees.childArms (n : SpannedNode S) :
    ∀ {l : List (Child E S V × FVal V)} {l' : List (Child E T W × FVal W)}, Listwise (ChildrenAgree' g h) l l' →
    Agrees g (Prod.map id (List.map (FVal.map h))) (childArms n l) (childArms (mapNode g n) l')
  | [], [], _ => Agrees.pure _
  | (c, fld) :: rest, (c', fld') :: rest', hl => by
    have hc : c.Agrees g h c' := hl.1.1
    have hst : fld' = fld.map h := hl.1.2
    subst hst
    have hrest : rest'.map (·.2) = (rest.map (·.2)).map (FVal.map h) := childrenAgree_snd hl.2
    unfold Knuffel.childArms
    rw [hc.mode, hc.name, hrest, mapNode_nodeName]
    refine Agrees.ite Iff.rfl (fun _ => ?_) fun _ => ?_
    · refine (hc.impls.part.insertChild fld n).bind fun r => Agrees.ite Iff.rfl (fun _ => Agrees.pure _) fun _ => ?_
      exact (Agrees.childArms n hl.2).bind fun _ => Agrees.pure _
    · refine Agrees.ite Iff.rfl (fun _ => ?_) fun _ => ?_
      · exact (Agrees.childArm hc fld n).bind fun x => Agrees.pure _
      · exact (Agrees.childArms n hl.2).bind fun _ => Agrees.pure _
  | [], _ :: _, hl => hl.elim
  | _ :: _, [], hl => hl.elim

theorem Agrees.childLoop {s : Struct E S V} {s' : Struct E T W} (hs : s.Agrees g h s') :
    ∀ (ns : List (SpannedNode S)) (flds var : List (FVal V)),
    Agrees g (Prod.map (List.map (FVal.map h)) (List.map (FVal.map h)))
      (childLoop s ns flds var)
      (childLoop s' (ns.map (mapNode g)) (flds.map (FVal.map h)) (var.map (FVal.map h)))
  | [], flds, var => Agrees.pure (flds, var)
  | n :: rest, flds, var => by
    rw [List.map_cons]
    unfold Knuffel.childLoop
    refine (Agrees.childArms n (childrenAgree_zip flds hs.children)).bind fun r =>
      Agrees.ite Iff.rfl (fun _ => Agrees.childLoop hs rest _ _) fun _ => ?_
    have hvc := hs.varChildren
    revert hvc
    cases s.varChildren with
    | none =>
      cases s'.varChildren with
      | some _ => exact fun hvc => hvc.elim
      | none => exact fun _ => (Agrees.emit (unexpectedNode_map n)).bind fun _ => Agrees.childLoop hs rest _ _
    | some vc =>
      cases s'.varChildren with
      | none => exact fun hvc => hvc.elim
      | some vc' =>
        intro hvc
        have hvc : vc.Agrees g h vc' := hvc
        refine (hvc.decoder n).bind fun x => ?_
        have := Agrees.childLoop hs rest r.2 (var ++ [x])
        simpa using this

theorem Agrees.finishChild (sp : Option S) {c : Child E S V} {c' : Child E T W} (hc : c.Agrees g h c')
    (fld : FVal V) : Agrees g (FVal.map h) (c.finish sp fld) (c'.finish (sp.map g) (fld.map h)) := by
  have hm : missingChild (sp.map g) c' = (missingChild sp c).mapSpan g := by
    unfold missingChild
    rw [hc.name]
    cases sp <;> rfl
  unfold Child.finish
  rw [hc.mode, hc.default, hc.option, hm]
  cases c.mode with
  | flatten => exact Agrees.pure _
  | bool => exact Agrees.pure _
  | normal =>
    cases c.default <;> cases c.option <;> cases fld <;>
      simp only [FVal.map_leaf, FVal.map_none, FVal.map_some, FVal.map_bool, FVal.map_list,
        FVal.map_pairs, FVal.map_record, FVal.map_variant, Option.map_some, Option.map_none] <;>
      first | exact Agrees.pure' (by simp) | exact Agrees.fail rfl
  | multi =>
    cases fld with
    | list xs =>
      cases xs <;> cases c.default <;> cases c.option <;>
        simp only [FVal.map_list, List.map_cons, List.map_nil, Option.map_some, Option.map_none] <;>
        exact Agrees.pure' (by simp)
    | _ =>
      cases c.default <;> cases c.option <;>
        simp only [FVal.map_leaf, FVal.map_none, FVal.map_some, FVal.map_bool,
          FVal.map_pairs, FVal.map_record, FVal.map_variant, Option.map_some, Option.map_none] <;>
        exact Agrees.pure' (by simp)

theorem Agrees.finishChildren (sp : Option S) :
    ∀ {l : List (Child E S V × FVal V)} {l' : List (Child E T W × FVal W)}, Listwise (ChildrenAgree' g h) l l' →
    Agrees g (envMap h) (finishChildren sp l) (finishChildren (sp.map g) l')
  | [], [], _ => Agrees.pure _
  | (c, fld) :: rest, (c', fld') :: rest', hl => by
    have hc : c.Agrees g h c' := hl.1.1
    have hst : fld' = fld.map h := hl.1.2
    subst hst
    unfold Knuffel.finishChildren
    rw [hc.field]
    exact (Agrees.finishChild sp hc fld).bind fun _ => (Agrees.finishChildren sp hl.2).bind fun _ => Agrees.pure _
  | [], _ :: _, hl => hl.elim
  | _ :: _, [], hl => hl.elim

theorem Agrees.decodeChildren {s : Struct E S V} {s' : Struct E T W} (hs : s.Agrees g h s') (sp : Option S)
    (ns : List (SpannedNode S)) :
    Agrees g (envMap h) (decodeChildren s sp ns) (decodeChildren s' (sp.map g) (ns.map (mapNode g))) := by
  unfold Knuffel.decodeChildren
  have hi : s'.children.map (·.init) = (s.children.map (·.init)).map (FVal.map h) := by
    rw [List.map_map]; exact hs.children.map_eq fun _ _ hab => hab.init
  rw [hi]
  refine (Agrees.childLoop hs _ _ []).bind fun r =>
    (Agrees.finishChildren sp (childrenAgree_zip _ hs.children)).bind fun env => ?_
  have hvc := hs.varChildren
  revert hvc
  cases s.varChildren with
  | none =>
    cases s'.varChildren with
    | some _ => exact fun hvc => hvc.elim
    | none => exact fun _ => Agrees.pure _
  | some vc =>
    cases s'.varChildren with
    | none => exact fun hvc => hvc.elim
    | some vc' =>
      intro hvc
      exact Agrees.pure' (by simp [show vc'.field = vc.field from hvc.field])

/-! ## The derived decoders -/

theorem assignExtra_map {s : Struct E S V} {s' : Struct E T W} (hs : s.Agrees g h s') :
    assignExtra s' = envMap h (assignExtra s) := by
  unfold assignExtra envMap
  rw [List.map_map]
  exact hs.extraFields.map_eq fun a b hab => by simp [hab.field, hab.impls.default]

theorem Agrees.decodeContent {s : Struct E S V} {s' : Struct E T W} (hs : s.Agrees g h s') (n : SpannedNode S) :
    Agrees g (envMap h) (decodeContent s n) (decodeContent s' (mapNode g n)) := by
  unfold Knuffel.decodeContent
  rw [mapNode_childNodes]
  exact (Agrees.decodeArgs hs n).bind fun _ => (Agrees.decodeProps hs n).bind fun _ =>
    (Agrees.decodeChildren hs (some n.span) _).bind fun _ => Agrees.pure' (by simp)

theorem Struct.Agrees.node {s : Struct E S V} {s' : Struct E T W} (hs : s.Agrees g h s') :
    NodeAgrees g (FVal.map h) s.node s'.node := fun n =>
  (Agrees.decodeSpecials hs n).bind fun _ => (Agrees.decodeContent hs n).bind fun _ =>
    Agrees.pure' (by simp [assignExtra_map hs])

theorem Struct.Agrees.root {s : Struct E S V} {s' : Struct E T W} (hs : s.Agrees g h s') :
    ChildrenAgree g (FVal.map h) s.root s'.root := fun ns =>
  (Agrees.decodeChildren hs none ns).bind fun _ => Agrees.pure' (by simp [assignExtra_map hs])

theorem FVal.map_field (f : AttrAccess) (x : FVal V) : (x.map h).field f = (x.field f).map h := by
  cases x with
  | record fs =>
    simp only [FVal.map_record, FVal.field]
    induction fs with
    | nil => simp
    | cons p fs ih =>
      by_cases hp : p.1 = f
      · simp [envMap, hp]
      · simpa [envMap, hp] using ih
  | _ => simp [FVal.field]

theorem Env.set_map (f : AttrAccess) (x : FVal V) : ∀ env : Env V,
    Env.set f (x.map h) (envMap h env) = envMap h (Env.set f x env)
  | [] => rfl
  | (k, y) :: env => by
    have ih := Env.set_map f x env
    simp only [envMap] at ih
    by_cases hk : k = f
    · simp [envMap, Env.set, hk]
    · simp [envMap, Env.set, hk, ih]

theorem FVal.map_setField (s : FVal V) (f : AttrAccess) (x : FVal V) :
    (s.map h).setField f (x.map h) = (s.setField f x).map h := by
  cases s with
  | record fs => simp only [FVal.map_record, FVal.setField, Env.set_map]
  | _ => simp [FVal.setField]

theorem Agrees.insertPropertyArms (k : Spanned Str S) (v : Value S) :
    ∀ {l : List (Prop' E S V)} {l' : List (Prop' E T W)} (self : FVal V), Listwise (Prop'.Agrees g h) l l' →
    Agrees g (Prod.map id (FVal.map h)) (insertPropertyArms k v l self)
      (insertPropertyArms (k.mapSpan g) (v.mapSpan g) l' (self.map h))
  | [], [], _, _ => Agrees.pure _
  | p :: ps, p' :: ps', self, hl => by
    have hp := hl.1
    unfold Knuffel.insertPropertyArms
    rw [hp.flatten, hp.name, hp.decode, hp.option, hp.field, FVal.map_field]
    refine Agrees.ite Iff.rfl (fun _ => ?_) fun _ => Agrees.ite Iff.rfl (fun _ => ?_) fun _ => ?_
    · refine (hp.impls.part.insertProperty _ k v).bind fun r => Agrees.ite Iff.rfl (fun _ => ?_) fun _ => ?_
      · exact Agrees.pure' (by simp [FVal.map_setField])
      · have := Agrees.insertPropertyArms k v (self.setField p.field r.2) hl.2
        rwa [← FVal.map_setField] at this
    · refine (Agrees.decodeValue hp.impls _ _ v).bind fun x => Agrees.pure' ?_
      rw [Prod.map_apply, ← FVal.map_setField]
      split <;> simp
    · exact Agrees.insertPropertyArms k v self hl.2
  | [], _ :: _, _, hl => hl.elim
  | _ :: _, [], _, hl => hl.elim

theorem Agrees.insertChildArms (n : SpannedNode S) :
    ∀ {l : List (Child E S V)} {l' : List (Child E T W)} (self : FVal V), Listwise (Child.Agrees g h) l l' →
    Agrees g (Prod.map id (FVal.map h)) (insertChildArms n l self) (insertChildArms (mapNode g n) l' (self.map h))
  | [], [], _, _ => Agrees.pure _
  | c :: cs, c' :: cs', self, hl => by
    have hc := hl.1
    unfold Knuffel.insertChildArms
    rw [hc.mode, hc.name, hc.field, FVal.map_field, mapNode_nodeName, FVal.map_isSome, duplicateNode_map hc]
    refine Agrees.ite Iff.rfl (fun _ => ?_) fun _ => Agrees.ite Iff.rfl (fun _ => ?_) fun _ => ?_
    · refine (hc.impls.part.insertChild _ n).bind fun r => Agrees.ite Iff.rfl (fun _ => ?_) fun _ => ?_
      · exact Agrees.pure' (by simp [FVal.map_setField])
      · have := Agrees.insertChildArms n (self.setField c.field r.2) hl.2
        rwa [← FVal.map_setField] at this
    · refine Agrees.ite Iff.rfl (fun _ => ?_) fun _ => ?_
      · refine (Agrees.checkFlagNode n).bind fun _ => ?_
        have hset : (self.map h).setField c.field (.bool true) = (self.setField c.field (.bool true)).map h := by
          rw [← FVal.map_setField, FVal.map_bool]
        cases self.field c.field with
        | bool b =>
          cases b with
          | true => exact (Agrees.emit rfl).bind fun _ => Agrees.pure' rfl
          | false => exact Agrees.pure' (by rw [hset]; rfl)
        | _ =>
          simp only [FVal.map_leaf, FVal.map_none, FVal.map_some, FVal.map_list,
            FVal.map_pairs, FVal.map_record, FVal.map_variant]
          exact Agrees.pure' (by rw [hset]; rfl)
      · have hrest : Agrees g (Prod.map id (FVal.map h))
            (do let v ← c.decoder n
                if c.mode = .multi then Pure.pure (true, self.setField c.field ((self.field c.field).push v))
                else Pure.pure (true, self.setField c.field (.some v)))
            (do let v ← c'.decoder (mapNode g n)
                if c.mode = .multi then
                  Pure.pure (true, (self.map h).setField c.field (((self.field c.field).map h).push v))
                else Pure.pure (true, (self.map h).setField c.field (.some v))) := by
          refine (hc.decoder n).bind fun x => Agrees.ite Iff.rfl (fun _ => ?_) fun _ => ?_
          · exact Agrees.pure' (by rw [FVal.map_push, FVal.map_setField]; rfl)
          · exact Agrees.pure' (by rw [← FVal.map_some, FVal.map_setField]; rfl)
        exact Agrees.ite Iff.rfl (fun _ => (Agrees.emit rfl).bind fun _ => hrest) fun _ => hrest
    · exact Agrees.insertChildArms n self hl.2
  | [], _ :: _, _, hl => hl.elim
  | _ :: _, [], _, hl => hl.elim

theorem Struct.Agrees.part {s : Struct E S V} {s' : Struct E T W} (hs : s.Agrees g h s') :
    s.part.Agrees g (FVal.map h) s'.part where
  insertChild a n := Agrees.insertChildArms n a hs.children
  insertProperty a k v := Agrees.insertPropertyArms k v a hs.properties

theorem nonEmptyNode_map (n : SpannedNode S) : nonEmptyNode (mapNode g n) = nonEmptyNode n := by
  unfold nonEmptyNode
  rw [mapNode_arguments, mapNode_properties, mapNode_children]
  simp

theorem newTypeNode_agrees {d : NodeDecoder E S (FVal V)} {d' : NodeDecoder E T (FVal W)}
    (hd : NodeAgrees g (FVal.map h) d d') : NodeAgrees g (FVal.map h) (newTypeNode d) (newTypeNode d') := by
  intro n
  unfold newTypeNode
  rw [nonEmptyNode_map]
  exact Agrees.ite Iff.rfl (fun _ => (hd n).bind fun _ => Agrees.pure' (by simp)) fun _ => Agrees.pure' (by simp)

theorem unwrapNode_agrees {s : Struct E S V} {s' : Struct E T W} (hs : s.Agrees g h s') (f) :
    NodeAgrees g (FVal.map h) (unwrapNode s f) (unwrapNode s' f) := by
  intro n
  unfold unwrapNode Env.get
  exact (Agrees.decodeContent hs n).bind fun env => Agrees.pure' (by rw [← FVal.map_field, FVal.map_record])

/-- Kinds of variants that agree. -/
def VariantKind.Agrees (g : S → T) (h : V → W) : VariantKind E S V → VariantKind E T W → Prop
  | .unit, .unit => True
  | .nested o d, .nested o' d' => o' = o ∧ NodeAgrees g (FVal.map h) d d'
  | .tuple s, .tuple s' => s.Agrees g h s'
  | _, _ => False

structure Variant.Agrees (g : S → T) (h : V → W) (a : Variant E S V) (b : Variant E T W) : Prop where
  ident : b.ident = a.ident
  name : b.name = a.name
  kind : a.kind.Agrees g h b.kind

theorem Variant.Agrees.arm {a : Variant E S V} {b : Variant E T W} (hab : a.Agrees g h b) :
    NodeAgrees g (FVal.map h) a.arm b.arm := by
  intro n
  unfold Variant.arm
  rw [hab.ident, nonEmptyNode_map]
  have hk := hab.kind
  revert hk
  cases a.kind with
  | unit =>
    cases b.kind <;> first | exact fun hk => hk.elim | skip
    exact fun _ => (Agrees.checkFlagNode n).bind fun _ => Agrees.pure' (by simp)
  | nested o d =>
    cases b.kind <;> first | exact fun hk => hk.elim | skip
    rintro ⟨rfl, hd⟩
    cases ‹Bool› with
    | false => exact (hd n).bind fun _ => Agrees.pure' (by simp)
    | true =>
      exact Agrees.ite Iff.rfl (fun _ => (hd n).bind fun _ => Agrees.pure' (by simp)) fun _ => Agrees.pure' (by simp)
  | tuple s =>
    cases b.kind <;> first | exact fun hk => hk.elim | skip
    exact fun hs => (Agrees.decodeContent hs n).bind fun _ => Agrees.pure' (by simp [assignExtra_map hs])

theorem Agrees.enumArms (names : List Str) (n : SpannedNode S) :
    ∀ {l : List (Variant E S V)} {l' : List (Variant E T W)}, Listwise (Variant.Agrees g h) l l' →
    Agrees g (FVal.map h) (enumArms names n l) (enumArms names (mapNode g n) l')
  | [], [], _ => by
    unfold Knuffel.enumArms
    rw [mapNode_nodeName]
    exact Agrees.fail rfl
  | v :: vs, v' :: vs', hl => by
    unfold Knuffel.enumArms
    rw [mapNode_nodeName, hl.1.name]
    exact Agrees.ite Iff.rfl (fun _ => hl.1.arm n) fun _ => Agrees.enumArms names n hl.2
  | [], _ :: _, hl => hl.elim
  | _ :: _, [], hl => hl.elim

theorem enumNode_agrees {l : List (Variant E S V)} {l' : List (Variant E T W)} (hl : Listwise (Variant.Agrees g h) l l') :
    NodeAgrees g (FVal.map h) (enumNode l) (enumNode l') := by
  intro n
  unfold enumNode
  rw [hl.map_eq (f := (·.name)) fun _ _ hab => hab.name]
  exact Agrees.enumArms _ n hl

theorem enumScalar_agrees (rustType : Str) (vs : List ScalarVariant) :
    (enumScalar (E := E) (S := S) (V := V) rustType vs).Agrees g (FVal.map h) (enumScalar rustType vs) := by
  refine Scalar.Agrees.provided (fun t => ?_) fun x => ?_
  · cases t with
    | none => exact Agrees.pure ()
    | some t => exact Agrees.emit rfl
  · obtain ⟨s, l⟩ := x
    cases l <;> simp only [Spanned.mapSpan] <;> try exact Agrees.fail rfl
    split
    · exact Agrees.pure' (by simp)
    · exact Agrees.fail rfl

/-! ## Declarations -/

theorem PlainAttrs.Agrees.defaultVal {a : PlainAttrs E S V} {b : PlainAttrs E T W} (hab : a.Agrees g h b) :
    b.defaultVal = a.defaultVal.map (FVal.map h) := by
  unfold PlainAttrs.defaultVal
  rw [hab.default]
  cases a.default with
  | none => rfl
  | some d => cases d <;> simp [hab.impls.default]

theorem PlainAttrs.Agrees.noDecode {a : PlainAttrs E S V} {b : PlainAttrs E T W} (hab : a.Agrees g h b) :
    b.noDecode = a.noDecode := by
  unfold PlainAttrs.noDecode
  rw [hab.decode]

theorem Resultwise.bind {R : α → β → Prop} {Q : γ → δ → Prop} {x : Except Str α} {x' : Except Str β}
    {f : α → Except Str γ} {f' : β → Except Str δ} (hx : Resultwise R x x')
    (hf : ∀ a b, R a b → Resultwise Q (f a) (f' b)) : Resultwise Q (x >>= f) (x' >>= f') := by
  cases x <;> cases x' <;> first | exact hx.elim | skip
  · exact hx
  · exact hf _ _ hx

/-- The same computation first. -/
theorem Resultwise.same {Q : γ → δ → Prop} (x : Except Str α)
    {f : α → Except Str γ} {f' : α → Except Str δ} (hf : ∀ a, Resultwise Q (f a) (f' a)) :
    Resultwise Q (x >>= f) (x >>= f') := by
  cases x
  · exact rfl
  · exact hf _

theorem Optionwise.errPair {R : α → β → Prop} {a : Option α} {b : Option β} (hab : Optionwise R a b) (m : String) :
    errPair b m = errPair a m := by
  cases a <;> cases b <;> first | exact hab.elim | rfl

theorem addFieldWith_agrees {b : Struct E S V} {b' : Struct E T W} (hb : b.Agrees g h b') (field : AttrAccess)
    (isOption isBool : Bool) {a : PlainAttrs E S V} {a' : PlainAttrs E T W} (ha : a.Agrees g h a') (u : Bool)
    {d : Except Str (NodeDecoder E S (FVal V))} {d' : Except Str (NodeDecoder E T (FVal W))}
    (hd : Resultwise (NodeAgrees g (FVal.map h)) d d') :
    Resultwise (Struct.Agrees g h) (addFieldWith b field isOption isBool a u d)
      (addFieldWith b' field isOption isBool a' u d') := by
  unfold addFieldWith
  rw [ha.mode, ha.decode, ha.noDecode, ha.defaultVal, hb.varArgs.errPair, hb.varArgs.errPair, hb.varProps.errPair,
    hb.varProps.errPair, hb.varProps.errPair, hb.varChildren.errPair, hb.varChildren.errPair, hb.varChildren.errPair]
  cases a.mode with
  | none => exact { hb with extraFields := hb.extraFields.append (.single ⟨rfl, rfl, ha.impls⟩) }
  | some m =>
    cases m with
    | argument =>
      exact Resultwise.same _ fun _ =>
        { hb with arguments := hb.arguments.append (.single ⟨rfl, rfl, rfl, rfl, ha.impls⟩) }
    | arguments => exact Resultwise.same _ fun _ => { hb with varArgs := ⟨rfl, rfl, ha.impls⟩ }
    | property name =>
      refine Resultwise.same _ fun _ => ?_
      have hfin : ∀ n, Resultwise (Struct.Agrees g h)
          (Except.ok { b with properties := b.properties ++
            [⟨field, n, isOption, a.decode.getD .normal, false, a.defaultVal, a.impls⟩] })
          (Except.ok { b' with properties := b'.properties ++
            [⟨field, n, isOption, a.decode.getD .normal, false, a.defaultVal.map (FVal.map h), a'.impls⟩] }) := fun n =>
        { hb with properties := hb.properties.append (.single ⟨rfl, rfl, rfl, rfl, rfl, rfl, ha.impls⟩) }
      cases name with
      | some n => exact hfin n
      | none =>
        cases field with
        | named n => exact hfin _
        | indexed i => exact rfl
    | properties => exact Resultwise.same _ fun _ => { hb with varProps := ⟨rfl, rfl, ha.impls⟩ }
    | child =>
      refine Resultwise.same _ fun _ => Resultwise.same _ fun _ => ?_
      cases field with
      | indexed i => exact rfl
      | named n => exact hd.bind fun _ _ hd =>
        { hb with children := hb.children.append (.single ⟨rfl, rfl, rfl, rfl, rfl, hd, ha.impls⟩) }
    | children name =>
      cases name with
      | some name =>
        exact Resultwise.same _ fun _ => Resultwise.same _ fun _ => hd.bind fun _ _ hd =>
          { hb with children := hb.children.append (.single ⟨rfl, rfl, rfl, rfl, rfl, hd, ha.impls⟩) }
      | none =>
        exact Resultwise.same _ fun _ => Resultwise.same _ fun _ => hd.bind fun _ _ hd =>
          { hb with varChildren := ⟨rfl, hd⟩ }
    | flatten child property =>
      cases isOption with
      | true => exact rfl
      | false =>
        refine Resultwise.same _ fun _ => ?_
        have hchild : ∀ {c : Struct E S V} {c' : Struct E T W}, c.Agrees g h c' → Resultwise (Struct.Agrees g h)
            (do errPair c.varChildren "extra `flatten(child)` after capture all `children`"
                pure { c with children := c.children ++ [⟨field, [], false, .flatten, none, a.impls.node, a.impls⟩] })
            (do errPair c'.varChildren "extra `flatten(child)` after capture all `children`"
                pure { c' with children := c'.children ++
                  [⟨field, [], false, .flatten, none, a'.impls.node, a'.impls⟩] }) := by
          intro c c' hc
          rw [hc.varChildren.errPair]
          exact Resultwise.same _ fun _ => { hc with
            children := hc.children.append (.single ⟨rfl, rfl, rfl, rfl, rfl, ha.impls.node, ha.impls⟩) }
        have hprop : Struct.Agrees g h
            { b with properties := b.properties ++ [⟨field, [], false, .normal, true, none, a.impls⟩] }
            { b' with properties := b'.properties ++ [⟨field, [], false, .normal, true, none, a'.impls⟩] } :=
          { hb with properties := hb.properties.append (.single ⟨rfl, rfl, rfl, rfl, rfl, rfl, ha.impls⟩) }
        cases property with
        | false =>
          cases child with
          | false => exact hb
          | true => exact hchild hb
        | true =>
          refine Resultwise.same _ fun _ => ?_
          cases child with
          | false => exact hprop
          | true => exact hchild hprop
    | span => exact Resultwise.same _ fun _ => { hb with spans := hb.spans.append (.single ⟨rfl, ha.impls⟩) }
    | nodeName => exact Resultwise.same _ fun _ => { hb with nodeNames := hb.nodeNames.append (.single ⟨rfl, ha.impls⟩) }
    | typeName => exact Resultwise.same _ fun _ => { hb with typeNames := hb.typeNames.append (.single ⟨rfl, rfl, ha.impls⟩) }

theorem struct_empty_agrees : ({} : Struct E S V).Agrees g h {} :=
  ⟨trivial, trivial, trivial, trivial, trivial, trivial, trivial, trivial, trivial, trivial⟩

theorem unwrapFn_agrees : ∀ (field : AttrAccess) {a : FieldAttrs E S V} {b : FieldAttrs E T W}, a.Agrees g h b →
    Resultwise (NodeAgrees g (FVal.map h)) (unwrapFn field a) (unwrapFn field b)
  | field, .plain a, .plain b, hab => by
    have hab : PlainAttrs.Agrees g h a b := hab
    unfold unwrapFn
    rw [hab.mode]
    have := addFieldWith_agrees (struct_empty_agrees (E := E)) field false false hab false
      (d := .ok a.impls.node) (d' := .ok b.impls.node) hab.impls.node
    rcases a.mode with _ | m
    · exact rfl
    · cases m <;> first | exact rfl | exact this.bind fun _ _ hs => unwrapNode_agrees hs field
  | field, .unwrapped a i, .unwrapped b j, hab => by
    have ha : PlainAttrs.Agrees g h a b := hab.1
    unfold unwrapFn
    rw [ha.mode]
    have := addFieldWith_agrees (struct_empty_agrees (E := E)) field false false ha true
      (unwrapFn_agrees (.named field.tmpName) hab.2)
    rcases a.mode with _ | m
    · exact rfl
    · cases m <;> first | exact rfl | exact this.bind fun _ _ hs => unwrapNode_agrees hs field
  | _, .plain _, .unwrapped _ _, hab => hab.elim
  | _, .unwrapped _ _, .plain _, hab => hab.elim

theorem addField_agrees {s : Struct E S V} {s' : Struct E T W} (hs : s.Agrees g h s') (field : AttrAccess) (o b : Bool) :
    ∀ {x : FieldAttrs E S V} {y : FieldAttrs E T W}, x.Agrees g h y →
    Resultwise (Struct.Agrees g h) (addField s field o b x) (addField s' field o b y)
  | .plain x, .plain y, hxy => by
    have hxy : PlainAttrs.Agrees g h x y := hxy
    unfold addField
    exact addFieldWith_agrees hs field o b hxy false (d := .ok _) (d' := .ok _) hxy.impls.node
  | .unwrapped x i, .unwrapped y j, hxy => by
    have hx : PlainAttrs.Agrees g h x y := hxy.1
    unfold addField
    exact addFieldWith_agrees hs field o b hx true (unwrapFn_agrees _ hxy.2)
  | .plain _, .unwrapped _ _, hab => hab.elim
  | .unwrapped _ _, .plain _, hab => hab.elim

theorem foldlM_agrees : ∀ {l : List (FieldDef E S V)} {l' : List (FieldDef E T W)} {s : Struct E S V} {s' : Struct E T W},
    Listwise (FieldDef.Agrees g h) l l' → s.Agrees g h s' →
    Resultwise (Struct.Agrees g h) (l.foldlM (fun b f => addField b f.field f.isOption f.isBool f.attrs) s)
      (l'.foldlM (fun b f => addField b f.field f.isOption f.isBool f.attrs) s')
  | [], [], _, _, _, hs => hs
  | f :: fs, f' :: fs', s, s', hl, hs => by
    rw [List.foldlM_cons, List.foldlM_cons, hl.1.field, hl.1.isOption, hl.1.isBool]
    exact (addField_agrees hs _ _ _ hl.1.attrs).bind fun _ _ hs => foldlM_agrees hl.2 hs
  | [], _ :: _, _, _, hl, _ => hl.elim
  | _ :: _, [], _, _, hl, _ => hl.elim

theorem struct_new_agrees {l : List (FieldDef E S V)} {l' : List (FieldDef E T W)}
    (hl : Listwise (FieldDef.Agrees g h) l l') : Resultwise (Struct.Agrees g h) (Struct.new l) (Struct.new l') :=
  foldlM_agrees hl struct_empty_agrees

theorem Optionwise.toList {R : α → β → Prop} {a : Option α} {b : Option β} (hab : Optionwise R a b) :
    Listwise R a.toList b.toList := by
  cases a <;> cases b <;> first | exact hab.elim | exact trivial | exact ⟨hab, trivial⟩

theorem Struct.Agrees.allFields {s : Struct E S V} {s' : Struct E T W} (hs : s.Agrees g h s') :
    s'.allFields = s.allFields := by
  unfold Struct.allFields
  rw [hs.spans.map_eq fun _ _ x => x.field, hs.nodeNames.map_eq fun _ _ x => x.field,
    hs.typeNames.map_eq fun _ _ x => x.field, hs.arguments.map_eq fun _ _ x => x.field,
    hs.varArgs.toList.map_eq fun _ _ x => x.field, hs.properties.map_eq fun _ _ x => x.field,
    hs.varProps.toList.map_eq fun _ _ x => x.field, hs.children.map_eq fun _ _ x => x.field,
    hs.varChildren.toList.map_eq fun _ _ x => x.field, hs.extraFields.map_eq fun _ _ x => x.field]

theorem variantKind_agrees {a : VariantFields E S V} {b : VariantFields E T W} (hab : a.Agrees g h b) :
    Resultwise (VariantKind.Agrees g h) a.kind b.kind := by
  cases a <;> cases b <;> first | exact hab.elim | exact trivial | exact rfl | skip
  refine (struct_new_agrees hab).bind fun s s' hs => ?_
  simp only [hs.allFields]
  have he := hs.extraFields
  revert he
  rcases s.allFields with _ | ⟨x, _ | ⟨y, fs⟩⟩
  · exact fun _ => hs
  · rcases s.extraFields with _ | ⟨e, _ | ⟨e2, es⟩⟩ <;> rcases s'.extraFields with _ | ⟨e', _ | ⟨e2', es'⟩⟩ <;>
      intro he <;> first | exact he.elim | exact he.2.elim | exact hs | exact ⟨he.1.option, he.1.impls.node⟩
  · exact fun _ => hs

theorem enumVariants_agrees : ∀ {l : List (VariantDef E S V)} {l' : List (VariantDef E T W)},
    Listwise (VariantDef.Agrees g h) l l' → Resultwise (Listwise (Variant.Agrees g h)) (enumVariants l) (enumVariants l')
  | [], [], _ => trivial
  | d :: ds, d' :: ds', hl => by
    unfold enumVariants
    rw [hl.1.skip, hl.1.ident]
    cases d.skip with
    | true => exact enumVariants_agrees hl.2
    | false =>
      exact (variantKind_agrees hl.1.fields).bind fun _ _ hk => (enumVariants_agrees hl.2).bind fun _ _ hvs =>
        ⟨⟨rfl, rfl, hk⟩, hvs⟩
  | [], _ :: _, hl => hl.elim
  | _ :: _, [], hl => hl.elim
end

end Knuffel
