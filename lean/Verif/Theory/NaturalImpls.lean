import Verif.Theory.Natural
import Verif.Theory.Meaning
import Verif.Model.ConvertAst
/-!
# The implementations of the library agree along a replacement of spans
-/

namespace Knuffel
variable {E S T Q R α β : Type} {g : S → T}

theorem Agrees.numTypeCheck (m : BuiltinType) (r : Str) (t : Option (Spanned TypeName S)) :
    Agrees (E := E) g id (numTypeCheck m r t) (numTypeCheck m r (t.map (Spanned.mapSpan g))) := by
  cases t with
  | none => exact Agrees.pure ()
  | some t => exact Agrees.ite Iff.rfl (fun _ => Agrees.emit rfl) fun _ => Agrees.pure ()

theorem Agrees.noTypeCheck (r : Str) (t : Option (Spanned TypeName S)) :
    Agrees (E := E) g id (noTypeCheck r t) (noTypeCheck r (t.map (Spanned.mapSpan g))) := by
  cases t with
  | none => exact Agrees.pure ()
  | some t => exact Agrees.emit rfl

theorem intScalar_agrees (ptr : Nat) (t : IntTy) : (intScalar (E := E) (S := S) ptr t).Agrees g id (intScalar ptr t) := by
  refine Scalar.Agrees.provided (Agrees.numTypeCheck _ _) fun x => ?_
  obtain ⟨s, l⟩ := x
  cases l with
  | int r ds =>
    simp only [Spanned.mapSpan]
    cases t.tryFrom ptr r ds with
    | ok v => exact Agrees.pure _
    | error e => exact (Agrees.emit rfl).bind fun _ => Agrees.pure (0 : Int)
  | _ => exact (Agrees.emit rfl).bind fun _ => Agrees.pure (0 : Int)

theorem floatScalar_agrees {F : Type} (t : FloatTy) (round : Str → F) (zero : F) :
    (floatScalar (E := E) (S := S) t round zero).Agrees g id (floatScalar t round zero) := by
  refine Scalar.Agrees.provided (Agrees.numTypeCheck _ _) fun x => ?_
  obtain ⟨s, l⟩ := x
  cases l with
  | decimal ds =>
    exact Agrees.ite Iff.rfl (fun _ => Agrees.pure _) fun _ => (Agrees.emit rfl).bind fun _ => Agrees.pure zero
  | _ => exact (Agrees.emit rfl).bind fun _ => Agrees.pure zero

theorem Agrees.textRaw (x : Spanned Literal S) : Agrees (E := E) g id (textRaw x) (textRaw (x.mapSpan g)) := by
  obtain ⟨s, l⟩ := x
  cases l with
  | string s => exact Agrees.pure _
  | _ => exact (Agrees.emit rfl).bind fun _ => Agrees.pure ([] : Str)

theorem boolScalar_agrees : (boolScalar (E := E) (S := S)).Agrees g id boolScalar := by
  refine Scalar.Agrees.provided (Agrees.noTypeCheck _) fun x => ?_
  obtain ⟨s, l⟩ := x
  cases l with
  | bool b => exact Agrees.pure _
  | _ => exact (Agrees.emit rfl).bind fun _ => Agrees.pure false

theorem optionScalar_agrees {h : α → β} {d : Scalar E S α} {d' : Scalar E T β} (hd : d.Agrees g h d') :
    (optionScalar d).Agrees g (Option.map h) (optionScalar d') := by
  refine Scalar.Agrees.provided hd.typeCheck fun x => ?_
  have hr := hd.rawDecode x
  obtain ⟨s, l⟩ := x
  cases l with
  | null => exact Agrees.pure _
  | _ => exact hr.map fun _ => rfl

theorem ptrScalar_agrees (k : PtrKind) {h : α → β} {d : Scalar E S α} {d' : Scalar E T β} (hd : d.Agrees g h d') :
    (ptrScalar k d).Agrees g (Ptr.mapValue h) (ptrScalar k d') :=
  Scalar.Agrees.provided hd.typeCheck fun x => (hd.rawDecode x).map fun _ => rfl

theorem spannedScalar_agrees {q : Q → R} {ds : SpanDecoder E S Q} {ds' : SpanDecoder E T R} (hs : SpanAgrees g q ds ds')
    {h : α → β} {d : Scalar E S α} {d' : Scalar E T β} (hd : d.Agrees g h d') :
    (spannedScalar ds d).Agrees g (fun x => ⟨q x.span, h x.value⟩) (spannedScalar ds' d') :=
  Scalar.Agrees.provided hd.typeCheck fun x =>
    (hd.rawDecode x).bind fun _ => (hs.run x.span).bind fun _ => Agrees.pure' rfl

theorem ptrNode_agrees (k : PtrKind) {h : α → β} {d : NodeDecoder E S α} {d' : NodeDecoder E T β}
    (hd : NodeAgrees g h d d') : NodeAgrees g (Ptr.mapValue h) (ptrNode k d) (ptrNode k d') :=
  fun n => (hd n).map fun _ => rfl

theorem ptrChildren_agree (k : PtrKind) {h : α → β} {d : ChildrenDecoder E S α} {d' : ChildrenDecoder E T β}
    (hd : ChildrenAgree g h d d') : ChildrenAgree g (Ptr.mapValue h) (ptrChildren k d) (ptrChildren k d') :=
  fun ns => (hd ns).map fun _ => rfl

theorem Agrees.getMut {h : α → β} (p : Ptr α) : Agrees (E := E) g h p.getMut (p.mapValue h).getMut := by
  obtain ⟨k, v, n⟩ := p
  cases k with
  | box => exact Agrees.pure _
  | _ => exact Agrees.ite Iff.rfl (fun _ => Agrees.pure _) fun _ => Agrees.panic

theorem ptrPartial_agrees {h : α → β} {d : Partial E S α} {d' : Partial E T β} (hd : d.Agrees g h d') :
    (ptrPartial d).Agrees g (Ptr.mapValue h) (ptrPartial d') where
  insertChild p n := (Agrees.getMut p).bind fun v => (hd.insertChild v n).bind fun _ => Agrees.pure' rfl
  insertProperty p k x := (Agrees.getMut p).bind fun v => (hd.insertProperty v k x).bind fun _ => Agrees.pure' rfl

theorem vecLoop_agrees {h : α → β} {d : NodeDecoder E S α} {d' : NodeDecoder E T β} (hd : NodeAgrees g h d d') :
    ∀ (ns : List (SpannedNode S)) (r : List α),
    Agrees g (List.map h) (vecLoop d ns r) (vecLoop d' (ns.map (mapNode g)) (r.map h))
  | [], r => Agrees.pure r
  | n :: ns, r => by
    intro c
    show (match d' (mapNode g n) (c.mapSpan g) with
      | .ok v c' => vecLoop d' (ns.map (mapNode g)) (r.map h ++ [v]) c'
      | .err e c' => vecLoop d' (ns.map (mapNode g)) (r.map h) (c'.emitError e)
      | .panic => .panic) = Out.mapSpan g _ (match d n c with
      | .ok v c' => vecLoop d ns (r ++ [v]) c'
      | .err e c' => vecLoop d ns r (c'.emitError e)
      | .panic => .panic)
    rw [hd n c]
    cases d n c with
    | ok v c' =>
      have := vecLoop_agrees hd ns (r ++ [v]) c'
      simpa [Out.mapSpan] using this
    | err e c' =>
      have := vecLoop_agrees hd ns r (c'.emitError e)
      rw [Ctx.mapSpan_emit] at this
      exact this
    | panic => rfl

theorem vecChildren_agree {h : α → β} {d : NodeDecoder E S α} {d' : NodeDecoder E T β} (hd : NodeAgrees g h d d') :
    ChildrenAgree g (List.map h) (vecChildren d) (vecChildren d') := fun ns => vecLoop_agrees hd ns []

/-! ## The syntax tree -/

mutual
theorem node_map_map {U : Type} (g : S → T) (f : T → U) :
    ∀ n : Node S, (n.mapSpan g).mapSpan f = n.mapSpan fun s => f (g s)
  | .mk ty name args props children => by
    have hc := children_map_map g f children
    simp only [Node.mapSpan]
    rw [hc]
    congr 1
    · cases ty <;> rfl
    · rw [List.map_map]
      refine List.map_congr_left fun v _ => ?_
      obtain ⟨t, l⟩ := v
      cases t <;> rfl
    · unfold mapProps
      rw [List.map_map]
      refine List.map_congr_left fun v _ => ?_
      obtain ⟨k, ⟨t, l⟩⟩ := v
      cases t <;> rfl
theorem children_map_map {U : Type} (g : S → T) (f : T → U) :
    ∀ b, mapChildren f (mapChildren g b) = mapChildren (fun s => f (g s)) b
  | none => rfl
  | some ⟨sp, l⟩ => congrArg (fun x => some (Spanned.mk (f (g sp)) x)) (nodes_map_map g f l)
theorem nodes_map_map {U : Type} (g : S → T) (f : T → U) :
    ∀ l, mapNodes f (mapNodes g l) = mapNodes (fun s => f (g s)) l
  | [] => rfl
  | ⟨sp, n⟩ :: l => by
    show (⟨f (g sp), (n.mapSpan g).mapSpan f⟩ : SpannedNode U) :: mapNodes f (mapNodes g l) = _
    rw [node_map_map g f n, nodes_map_map g f l]
    rfl
end


theorem foldl_propInsert_map {q : Q → R} : ∀ (l m : List (Spanned Str Q × Value Q)),
    (mapProps q l).foldl (fun m p => propInsert p.1 p.2 m) (mapProps q m) =
      mapProps q (l.foldl (fun m p => propInsert p.1 p.2 m) m)
  | [], _ => rfl
  | (k, v) :: l, m => by
    show (mapProps q l).foldl _ (propInsert (k.mapSpan q) (v.mapSpan q) (mapProps q m)) = _
    rw [← propInsert_map]
    exact foldl_propInsert_map l _

section
variable {q : Q → R} {ds : SpanDecoder E S Q} {ds' : SpanDecoder E T R} (hs : SpanAgrees g q ds ds')
include hs

theorem cloneOpt_agrees (x : Option (Spanned α S)) :
    Agrees g (Option.map (Spanned.mapSpan q)) (cloneOpt ds x) (cloneOpt ds' (x.map (Spanned.mapSpan g))) := by
  cases x with
  | none => exact Agrees.pure _
  | some x => exact (hs.cloneAs x).bind fun _ => Agrees.pure _

theorem valueScalar_agrees : (valueScalar ds).Agrees g (Value.mapSpan q) (valueScalar ds') where
  typeCheck _ := Agrees.pure ()
  rawDecode _ := Agrees.panic
  decode v := (cloneOpt_agrees hs v.typeName).bind fun _ => (hs.cloneAs v.literal).bind fun _ => Agrees.pure _

theorem astProperties_agrees (ps : List (Spanned Str S × Value S)) :
    Agrees g (mapProps q) (astProperties ds ps) (astProperties ds' (mapProps g ps)) := by
  refine (Agrees.collect (m := fun kv : Spanned Str S × Value S => (kv.1.mapSpan g, kv.2.mapSpan g))
    (h := fun kv : Spanned Str Q × Value Q => (kv.1.mapSpan q, kv.2.mapSpan q))
    (f' := fun p => do
      let k ← p.1.cloneAs ds'
      let v ← (valueScalar ds').decode p.2
      pure (k, v)) (fun kv => (hs.cloneAs kv.1).bind fun _ =>
        ((valueScalar_agrees hs).decode kv.2).bind fun _ => Agrees.pure' rfl) ps).bind fun l => ?_
  exact Agrees.pure' (foldl_propInsert_map l [])

mutual
theorem astNode_agrees : ∀ n : Node S, Agrees g (Node.mapSpan q) (astNode ds n) (astNode ds' (n.mapSpan g))
  | .mk ty name args props children => by
    unfold Node.mapSpan astNode
    exact (cloneOpt_agrees hs ty).bind fun _ => (hs.cloneAs name).bind fun _ =>
      (Agrees.collect (valueScalar_agrees hs).decode args).bind fun _ => (astProperties_agrees hs props).bind fun _ =>
      (astChildren_agrees children).bind fun _ => Agrees.pure' (by simp only [Node.mapSpan])
theorem astChildren_agrees : ∀ b, Agrees g (mapChildren q) (astChildren ds b) (astChildren ds' (mapChildren g b))
  | none => Agrees.pure' rfl
  | some ⟨sp, nodes⟩ => by
    unfold mapChildren astChildren
    exact (hs.run sp).bind fun _ => (astNodes_agrees nodes).bind fun _ => Agrees.pure' (by simp only [mapChildren])
theorem astNodes_agrees : ∀ l, Agrees g (mapNodes q) (astNodes ds l) (astNodes ds' (mapNodes g l))
  | [] => Agrees.pure' rfl
  | ⟨sp, n⟩ :: l => by
    unfold mapNodes astNodes
    exact (hs.run sp).bind fun _ => (astNode_agrees n).bind fun _ => (astNodes_agrees l).bind fun _ =>
      Agrees.pure' (by simp only [mapNodes])
end

theorem astNodeDecoder_agrees : NodeAgrees g (Node.mapSpan q) (astNodeDecoder ds) (astNodeDecoder ds') :=
  fun n => astNode_agrees hs n.value

theorem astSpannedDecoder_agrees : NodeAgrees g (mapNode q) (astSpannedDecoder ds) (astSpannedDecoder ds') :=
  fun n => (hs.run n.span).bind fun _ => (astNode_agrees hs n.value).bind fun _ => Agrees.pure' rfl
end

end Knuffel
