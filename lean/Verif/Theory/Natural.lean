import Verif.Spec.Natural
import Verif.Model.Convert
import Verif.Model.Containers
/-!
# Agreement of decoding computations along a replacement of spans
-/

set_option linter.unusedSectionVars false

namespace Knuffel
variable {E S T α β γ δ V W : Type}

/-! ## Nodes -/

section
variable (g : S → T) (n : SpannedNode S)

theorem mapNode_nodeName : (mapNode g n).value.nodeName = n.value.nodeName.mapSpan g := by
  obtain ⟨s, ⟨a, b, c, d, e⟩⟩ := n; rfl
theorem mapNode_typeName : (mapNode g n).value.typeName = n.value.typeName.map (Spanned.mapSpan g) := by
  obtain ⟨s, ⟨a, b, c, d, e⟩⟩ := n; rfl
theorem mapNode_arguments : (mapNode g n).value.arguments = n.value.arguments.map (Value.mapSpan g) := by
  obtain ⟨s, ⟨a, b, c, d, e⟩⟩ := n; rfl
theorem mapNode_properties : (mapNode g n).value.properties =
    n.value.properties.map fun kv => (kv.1.mapSpan g, kv.2.mapSpan g) := by
  obtain ⟨s, ⟨a, b, c, d, e⟩⟩ := n; rfl
theorem mapNodes_eq : ∀ l : List (SpannedNode S), mapNodes g l = l.map (mapNode g)
  | [] => rfl
  | ⟨s, n⟩ :: l => by
    show (⟨g s, n.mapSpan g⟩ : SpannedNode T) :: mapNodes g l = _
    rw [mapNodes_eq l]; rfl
theorem mapNode_children : (mapNode g n).value.children =
    n.value.children.map fun b => ⟨g b.span, b.value.map (mapNode g)⟩ := by
  obtain ⟨s, ⟨a, b, c, d, e⟩⟩ := n
  cases e with
  | none => rfl
  | some b => obtain ⟨s', l⟩ := b; exact congrArg (fun x => some (Spanned.mk (g s') x)) (mapNodes_eq g l)
theorem mapNode_childNodes : (mapNode g n).value.childNodes = n.value.childNodes.map (mapNode g) := by
  obtain ⟨s, ⟨a, b, c, d, e⟩⟩ := n
  cases e with
  | none => rfl
  | some b => obtain ⟨s', l⟩ := b; exact mapNodes_eq g l
end

/-! ## Values of fields -/

theorem FVal.mapList_eq (h : V → W) : ∀ l, FVal.mapList h l = l.map (FVal.map h)
  | [] => by simp [FVal.mapList]
  | x :: xs => by simp [FVal.mapList, FVal.mapList_eq h xs]

theorem FVal.mapPairs_eq (h : V → W) : ∀ l, FVal.mapPairs h l = l.map (Prod.map (FVal.map h) (FVal.map h))
  | [] => by simp [FVal.mapPairs]
  | (x, y) :: xs => by simp [FVal.mapPairs, FVal.mapPairs_eq h xs]

theorem FVal.mapEnv_eq (h : V → W) : ∀ l, FVal.mapEnv h l = l.map (Prod.map id (FVal.map h))
  | [] => by simp [FVal.mapEnv]
  | (x, y) :: xs => by simp [FVal.mapEnv, FVal.mapEnv_eq h xs]

/-- Replace the leaves in the variables of the generated code. -/
abbrev envMap (h : V → W) (env : Env V) : Env W := env.map (Prod.map id (FVal.map h))

@[simp] theorem FVal.map_leaf (h : V → W) (v) : (FVal.leaf v).map h = .leaf (h v) := by simp [FVal.map]
@[simp] theorem FVal.map_none (h : V → W) : (FVal.none : FVal V).map h = .none := by simp [FVal.map]
@[simp] theorem FVal.map_some (h : V → W) (v) : (FVal.some v).map h = .some (v.map h) := by simp [FVal.map]
@[simp] theorem FVal.map_bool (h : V → W) (v) : (FVal.bool v : FVal V).map h = .bool v := by simp [FVal.map]
@[simp] theorem FVal.map_list (h : V → W) (v) : (FVal.list v).map h = .list (v.map (FVal.map h)) := by
  simp [FVal.map, FVal.mapList_eq]
@[simp] theorem FVal.map_pairs (h : V → W) (v) :
    (FVal.pairs v).map h = .pairs (v.map (Prod.map (FVal.map h) (FVal.map h))) := by
  simp [FVal.map, FVal.mapPairs_eq]
@[simp] theorem FVal.map_record (h : V → W) (v) : (FVal.record v).map h = .record (envMap h v) := by
  simp [FVal.map, FVal.mapEnv_eq]
@[simp] theorem FVal.map_variant (h : V → W) (n v) : (FVal.variant n v).map h = .variant n (v.map h) := by
  simp [FVal.map]

/-! ## The monad -/

theorem Ctx.mapSpan_emit (g : S → T) (c : Ctx E S) (e : DErr S) :
    (c.emitError e).mapSpan g = (c.mapSpan g).emitError (e.mapSpan g) := by
  simp [Ctx.mapSpan, Ctx.emitError]

section
variable {g : S → T}

theorem Agrees.pure {h : α → β} (a : α) : Agrees g h (Pure.pure a : D E S α) (Pure.pure (h a)) := fun _ => rfl

theorem Agrees.pure' {h : α → β} {a : α} {b : β} (hb : b = h a) :
    Agrees g h (Pure.pure a : D E S α) (Pure.pure b) := hb ▸ Agrees.pure a

theorem Agrees.bind {h : α → β} {k : γ → δ} {x : D E S α} {x' : D E T β} {f : α → D E S γ} {f' : β → D E T δ}
    (hx : Agrees g h x x') (hf : ∀ a, Agrees g k (f a) (f' (h a))) : Agrees g k (x >>= f) (x' >>= f') := by
  intro c
  show D.bind x' f' _ = (D.bind x f c).mapSpan g k
  unfold D.bind
  rw [hx c]
  cases x c with
  | ok a c' => exact hf a c'
  | err e c' => rfl
  | panic => rfl

theorem Agrees.fail {h : α → β} {e : DErr S} {e' : DErr T} (he : e' = e.mapSpan g) :
    Agrees (E := E) g h (D.fail e) (D.fail e') := by
  subst he; exact fun _ => rfl

theorem Agrees.emit {e : DErr S} {e' : DErr T} (he : e' = e.mapSpan g) :
    Agrees (E := E) g id (D.emit e) (D.emit e') := by
  subst he
  intro c
  show Out.ok () _ = Out.ok () _
  rw [Ctx.mapSpan_emit]

theorem Agrees.panic {h : α → β} : Agrees (E := E) g h (D.panic : D E S α) D.panic := fun _ => rfl

theorem Agrees.ite {h : α → β} {p q : Prop} [Decidable p] [Decidable q] (hpq : p ↔ q) {x y : D E S α}
    {x' y' : D E T β} (hx : p → Agrees g h x x') (hy : ¬ p → Agrees g h y y') :
    Agrees g h (if p then x else y) (if q then x' else y') := by
  by_cases hp : p
  · rw [if_pos hp, if_pos (hpq.1 hp)]; exact hx hp
  · rw [if_neg hp, if_neg (fun hq => hp (hpq.2 hq))]; exact hy hp

theorem Agrees.map {h : α → β} {k : γ → δ} {x : D E S α} {x' : D E T β} {f : α → γ} {f' : β → δ}
    (hx : Agrees g h x x') (hf : ∀ a, f' (h a) = k (f a)) : Agrees g k (x.map f) (x'.map f') :=
  hx.bind fun a => Agrees.pure' (hf a)

theorem Agrees.forEach {α' : Type} {h : Unit → Unit} {m : α → α'} {f : α → D E S Unit} {f' : α' → D E T Unit}
    (hf : ∀ a, Agrees g h (f a) (f' (m a))) : ∀ l, Agrees g h (D.forEach f l) (D.forEach f' (l.map m))
  | [] => Agrees.pure ()
  | x :: xs => (hf x).bind fun _ => Agrees.forEach hf xs

theorem Agrees.collect {α' : Type} {h : β → γ} {m : α → α'} {f : α → D E S β} {f' : α' → D E T γ}
    (hf : ∀ a, Agrees g h (f a) (f' (m a))) :
    ∀ l, Agrees g (List.map h) (D.collect f l) (D.collect f' (l.map m))
  | [] => Agrees.pure []
  | x :: xs => (hf x).bind fun _ => (Agrees.collect hf xs).bind fun _ => Agrees.pure _

theorem SpanAgrees.run {h : α → β} {d : SpanDecoder E S α} {d' : SpanDecoder E T β} (hd : SpanAgrees g h d d')
    (s : S) : Agrees g h (d.run s) (d'.run (g s)) := by
  intro c
  show Out.ok _ _ = Out.ok _ _
  rw [hd s c]

theorem SpanAgrees.cloneAs {h : α → β} {d : SpanDecoder E S α} {d' : SpanDecoder E T β} (hd : SpanAgrees g h d d')
    (x : Spanned γ S) : Agrees g (Spanned.mapSpan h) (x.cloneAs d) ((x.mapSpan g).cloneAs d') :=
  (hd.run _).bind fun _ => Agrees.pure _

theorem Scalar.Agrees.provided {h : α → β} {t t' r r'}
    (ht : ∀ x, Knuffel.Agrees (E := E) g id (t x) (t' (x.map (Spanned.mapSpan g))))
    (hr : ∀ x, Knuffel.Agrees (E := E) g h (r x) (r' (x.mapSpan g))) :
    (Scalar.provided t r).Agrees g h (Scalar.provided t' r') where
  typeCheck := ht
  rawDecode := hr
  decode v := (ht v.typeName).bind fun _ => hr v.literal

/-! ## Shared helpers -/

theorem Agrees.liftConv {h : V → W} (x : Spanned α S) {r r'} (hr : r' = r.map (FVal.map h)) :
    Agrees g (FVal.map h) (liftConv (E := E) x r) (liftConv (x.mapSpan g) r') := by
  subst hr
  cases r with
  | error m => exact Agrees.fail rfl
  | ok v => exact Agrees.pure v

theorem Agrees.strTypeCheck (t : Option (Spanned TypeName S)) :
    Agrees g id (strTypeCheck (E := E) t) (strTypeCheck (t.map (Spanned.mapSpan g))) := by
  cases t with
  | none => exact Agrees.pure ()
  | some t => exact Agrees.emit rfl

theorem Agrees.decodeBytes [Externals] (v : Value S) :
    Agrees g id (decodeBytes (E := E) v) (decodeBytes (v.mapSpan g)) := by
  obtain ⟨t, ⟨s, l⟩⟩ := v
  cases t with
  | none =>
    cases l <;> first | exact Agrees.pure _ | exact (Agrees.emit rfl).bind fun _ => Agrees.pure _
  | some t =>
    obtain ⟨ts, t⟩ := t
    simp only [Knuffel.decodeBytes, Value.mapSpan, Spanned.mapSpan, Option.map_some]
    split
    · cases l <;> simp only [] <;> try exact (Agrees.emit rfl).bind fun _ => Agrees.pure _
      split
      · exact Agrees.pure _
      · exact (Agrees.emit rfl).bind fun _ => Agrees.pure _
    · exact (Agrees.emit rfl).bind fun _ => Agrees.pure _

theorem unexpectedNode_map (n : SpannedNode S) : unexpectedNode (mapNode g n) = (unexpectedNode n).mapSpan g := by
  obtain ⟨s, ⟨a, b, c, d, e⟩⟩ := n; rfl

theorem missingIn_map (n : SpannedNode S) (m) : DErr.missingIn (mapNode g n) m = (DErr.missingIn n m).mapSpan g := by
  obtain ⟨s, ⟨a, b, c, d, e⟩⟩ := n; rfl

theorem Agrees.checkFlagNode (n : SpannedNode S) :
    Agrees g id (checkFlagNode (E := E) n) (checkFlagNode (mapNode g n)) := by
  unfold Knuffel.checkFlagNode
  rw [mapNode_arguments, mapNode_properties, mapNode_children]
  refine (Agrees.forEach (m := Value.mapSpan g) (f' := fun v => D.emit (unexpectedArgument v))
    (fun v => Agrees.emit rfl) _).bind fun _ =>
    (Agrees.forEach (m := fun kv : Spanned Str S × Value S => (kv.1.mapSpan g, kv.2.mapSpan g))
      (f' := fun p => D.emit (unexpectedProperty p.1)) (fun v => Agrees.emit rfl) _).bind fun _ => ?_
  cases n.value.children with
  | none => exact Agrees.pure ()
  | some b =>
    exact Agrees.forEach (m := mapNode g) (f' := fun n => D.emit (unexpectedNode n)) (fun a => Agrees.emit (unexpectedNode_map a)) _
end

end Knuffel
