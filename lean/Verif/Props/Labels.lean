import Verif.Spec.Labels
import Verif.Props.Complaints
import Verif.Props.Spans
import Verif.Props.DeriveNew
/-!
# Labels of decode errors

C60: the labels of decode errors point at parts of what was decoded, hence into the text.
-/

set_option linter.unusedSectionVars false

namespace Knuffel
variable {E S V α β : Type}

/-! ### Spans of the parts -/

mutual
theorem nested_outer {P : S → Prop} {o : S} (o' : S) : ∀ {n : Node S}, n.Nested (fun a _ => P a) o → n.Nested (fun a _ => P a) o'
  | .mk ty name args props children => by
    simp only [Node.Nested]
    exact fun ⟨h1, h2, h3, h4, h5⟩ => ⟨h1, h2, h3, h4, nestedChildren_outer o' h5⟩
theorem nestedChildren_outer {P : S → Prop} {o : S} (o' : S) : ∀ {c}, NestedChildren (fun a _ => P a) o c → NestedChildren (fun a _ => P a) o' c
  | none => fun h => h
  | some ⟨_, _⟩ => fun h => h
end

theorem nestedNodes_mem {P : S → Prop} {o : S} {l : List (SpannedNode S)} : NestedNodes (fun a _ => P a) o l ↔ ∀ n ∈ l, AllSpans P n := by
  induction l with
  | nil => simp [NestedNodes]
  | cons n l ih =>
    obtain ⟨sp, n⟩ := n
    rw [NestedNodes, ih]
    simp [AllSpans, and_assoc]

namespace AllSpans
variable {P : S → Prop} {n : SpannedNode S}

theorem name (h : AllSpans P n) : P n.value.nodeName.span := by
  obtain ⟨sp, ⟨ty, name, args, props, children⟩⟩ := n
  exact h.2.2.1
theorem typeName (h : AllSpans P n) {tn} (ht : n.value.typeName = some tn) : P tn.span := by
  obtain ⟨sp, ⟨ty, name, args, props, children⟩⟩ := n
  exact h.2.1 tn ht
theorem argument (h : AllSpans P n) {v} (hv : v ∈ n.value.arguments) : v.AllSpans P := by
  obtain ⟨sp, ⟨ty, name, args, props, children⟩⟩ := n
  exact h.2.2.2.1 v hv
theorem property (h : AllSpans P n) {q} (hq : q ∈ n.value.properties) : P q.1.span ∧ q.2.AllSpans P := by
  obtain ⟨sp, ⟨ty, name, args, props, children⟩⟩ := n
  exact h.2.2.2.2.1 q hq
theorem child (h : AllSpans P n) {m} (hm : m ∈ n.value.childNodes) : AllSpans P m := by
  obtain ⟨sp, ⟨ty, name, args, props, children⟩⟩ := n
  have := h.2.2.2.2.2
  cases children with
  | none => cases hm
  | some b =>
    obtain ⟨bs, l⟩ := b
    exact nestedNodes_mem.1 this.2 m hm
theorem child' (h : AllSpans P n) {b} (hb : n.value.children = some b) {m} (hm : m ∈ b.value) : AllSpans P m :=
  h.child (by unfold Node.childNodes; rw [hb]; exact hm)
end AllSpans

/-! ### C60 -/

/-- **C60.** An error about a part of the document has one label, at that part, and the label is not empty; an error
about none has no label. -/
theorem c60_labelled (e : DErr S) : e.labels.map (·.2) = e.place?.toList ∧ ∀ l ∈ e.labels, l.1 ≠ [] := by
  cases e <;> refine ⟨rfl, ?_⟩ <;> simp [DErr.labels]

example : DErr.place? (.missing 3 "x".toList : DErr Nat) = some 3 := rfl

/-- **C60** for values: errors that are true of a value point at it. -/
theorem c60_true {kinds : List Kind} {shown : Kind} {types : List TypeName} {v : Value S} {e : DErr S}
    (h : e.TrueOf kinds shown types v) {P : S → Prop} (hv : v.AllSpans P) : e.Points P := by
  intro l hl
  cases e with
  | typeName sp f ex r =>
    obtain ⟨tn, h1, h2, -⟩ := h
    simp only [DErr.labels, List.mem_singleton] at hl
    subst hl
    rw [h2]
    exact hv.1 tn h1
  | scalarKind sp ex f =>
    simp only [DErr.labels, List.mem_singleton] at hl
    subst hl
    rw [h.1]
    exact hv.2
  | conversion sp src =>
    simp only [DErr.labels, List.mem_singleton] at hl
    subst hl
    rw [h.1]
    exact hv.2
  | _ => exact h.elim

/-- **C60** for the scalar types of C58. -/
theorem c60_scalar {d : Scalar E S α} {kinds : List Kind} {shown : Kind} {types : List TypeName}
    (h : d.Truthful kinds shown types) : PointsAtValue d.decode :=
  fun _ v hv => (h.decode v).mono fun _ he => c60_true he hv

/-- **C60** for the decode modes. -/
theorem c60_modes [Externals] (impls : Impls E S V) (option : Bool) :
    PointsAtValue (decodeValue .str option impls) ∧ PointsAtValue (decodeValue .bytes option impls) := by
  constructor
  · intro P v hv
    cases option with
    | false => exact (c58_str impls v).1.mono fun _ he => c60_true he hv
    | true => exact (c58_str impls v).2.mono fun _ he => c60_true he hv
  · intro P v hv
    have key : ∀ kinds : List Kind, ∀ e : DErr S, (e.TrueOf kinds .string [.builtin .base64] v ∨
        ∃ m, e = .conversion v.literal.span (.text m)) → e.Points P := by
      intro kinds e he
      rcases he with he | ⟨m, rfl⟩
      · exact c60_true he hv
      · intro l hl
        simp only [DErr.labels, List.mem_singleton] at hl
        subst hl
        exact hv.2
    cases option with
    | false => exact (c58_bytes_partial impls v).1.mono fun e he => key _ e he
    | true => exact (c58_bytes_partial impls v).2.mono fun e he => key _ e he

theorem FlagComplaint.points {P : S → Prop} {n : SpannedNode S} (h : AllSpans P n) {e : DErr S} (he : FlagComplaint n e) :
    e.Points P := by
  intro l hl
  cases he with
  | argument hv =>
    simp only [DErr.labels, List.mem_singleton] at hl
    subst hl
    exact (h.argument hv).2
  | property hp =>
    simp only [DErr.labels, List.mem_singleton] at hl
    subst hl
    exact (h.property hp).1
  | child hb hn =>
    simp only [DErr.labels, List.mem_singleton] at hl
    subst hl
    exact (h.child' hb hn).1

section
variable [Externals] {s : Struct E S V}

theorem HeadComplaint.points (hs : s.PointsAt) {P : S → Prop} {n : SpannedNode S} (h : AllSpans P n) {e : DErr S}
    (he : HeadComplaint s n e) : e.Points P := by
  cases he with
  | span hf hr => exact (hs.spans _ hf P _ h.1).reported hr
  | nodeName _ _ | noTypeName _ _ _ =>
    intro l hl
    simp only [DErr.labels, List.mem_singleton] at hl
    subst hl
    exact h.name
  | typeName _ ht _ | strayTypeName _ ht =>
    intro l hl
    simp only [DErr.labels, List.mem_singleton] at hl
    subst hl
    exact h.typeName ht

theorem ArgComplaint.points (hs : s.PointsAt) {P : S → Prop} {n : SpannedNode S} (h : AllSpans P n) {e : DErr S}
    (he : ArgComplaint s n e) : e.Points P := by
  cases he with
  | value ha hv hr => exact (hs.arguments _ (List.mem_of_getElem? ha) P _ (h.argument (List.mem_of_getElem? hv))).reported hr
  | rest hva _ hv hr => exact (hs.varArgs _ hva P _ (h.argument (List.mem_of_getElem? hv))).reported hr
  | missingNamed _ _ _ _ | missing _ _ _ _ =>
    intro l hl
    simp only [DErr.labels, List.mem_singleton] at hl
    subst hl
    exact h.name
  | surplus _ hv =>
    intro l hl
    simp only [DErr.labels, List.mem_singleton] at hl
    subst hl
    exact (h.argument (List.mem_of_getElem? hv)).2

theorem mem_of_propsFor {takes : Prop' E S V → Str → Bool} {n : SpannedNode S} {i} {q} (h : q ∈ s.propsFor takes n i) :
    q ∈ n.value.properties := by
  unfold Struct.propsFor at h
  exact (List.mem_filter.1 h).1

theorem mem_of_nodesFor {takes : Child E S V → Str → Bool} {nodes : List (SpannedNode S)} {i} {q} (h : q ∈ s.nodesFor takes nodes i) :
    q ∈ nodes := by
  unfold Struct.nodesFor at h
  exact (List.mem_filter.1 h).1

theorem PropComplaint.points (hs : s.PointsAt) {takes} {P : S → Prop} {n : SpannedNode S} (h : AllSpans P n) {e : DErr S}
    (he : PropComplaint s takes n e) : e.Points P := by
  cases he with
  | value hp hf hq hr =>
    have := hs.properties _ (List.mem_of_getElem? hp)
    rw [hf, if_neg (by simp)] at this
    exact (this P _ (h.property (mem_of_propsFor hq)).2).reported hr
  | flattened hp hf hq hr =>
    have := hs.properties _ (List.mem_of_getElem? hp)
    rw [hf, if_pos rfl] at this
    have hq := h.property (mem_of_propsFor hq)
    exact (this.property P _ _ _ hq.1 hq.2).reported hr
  | rest hv hq hr => exact (hs.varProps _ hv P _ (h.property (mem_of_propsFor hq)).2).reported hr
  | key _ hq _ | unexpected _ hq =>
    intro l hl
    simp only [DErr.labels, List.mem_singleton] at hl
    subst hl
    exact (h.property (mem_of_propsFor hq)).1
  | missing _ _ _ _ =>
    intro l hl
    simp only [DErr.labels, List.mem_singleton] at hl
    subst hl
    exact h.name

theorem ChildComplaint.points (hs : s.PointsAt) {takes} {P : S → Prop} {place : Option S} (hpl : ∀ sp, place = some sp → P sp)
    {nodes : List (SpannedNode S)} (h : ∀ n ∈ nodes, AllSpans P n) {e : DErr S}
    (he : ChildComplaint s takes place nodes e) : e.Points P := by
  cases he with
  | node hp hm hq hr =>
    have := hs.children _ (List.mem_of_getElem? hp)
    rw [if_neg (by rcases hm with hm | hm <;> rw [hm] <;> simp)] at this
    exact (this P _ (h _ (mem_of_nodesFor hq))).reported hr
  | flag hp hm hq hr => exact hr.points (h _ (mem_of_nodesFor hq))
  | flattened hp hm hq hr =>
    have := hs.children _ (List.mem_of_getElem? hp)
    rw [if_pos hm] at this
    exact (this.child P _ _ (h _ (mem_of_nodesFor hq))).reported hr
  | @duplicate i ch pre post n hp hm hq _ =>
    intro l hl
    simp only [DErr.labels, List.mem_singleton] at hl
    subst hl
    have hn : n ∈ s.nodesFor takes nodes (some i) := by rw [hq]; simp
    exact (h n (mem_of_nodesFor hn)).name
  | rest hv hq hr => exact (hs.varChildren _ hv P _ (h _ (mem_of_nodesFor hq))).reported hr
  | unexpected _ hq =>
    intro l hl
    simp only [DErr.labels, List.mem_singleton] at hl
    subst hl
    exact (h _ (mem_of_nodesFor hq)).1
  | missingIn _ _ _ _ hsp =>
    intro l hl
    simp only [DErr.labels, List.mem_singleton] at hl
    subst hl
    exact hpl _ hsp
  | missing _ _ _ _ _ =>
    intro l hl
    simp [DErr.labels] at hl

theorem ContentComplaint.points (hs : s.PointsAt) {takesP takesC} {P : S → Prop} {n : SpannedNode S} (h : AllSpans P n) {e : DErr S}
    (he : ContentComplaint s takesP takesC n e) : e.Points P := by
  rcases he with he | he | he
  · exact he.points hs h
  · exact he.points hs h
  · exact he.points hs (fun sp hsp => by cases hsp; exact h.1) fun m hm => h.child hm

/-- **C60** for derived structs: if the decoders of the fields point at what they decode, so does that of the struct. -/
theorem c60_node (hk : s.Keeps) {takesP takesC} (hp : s.PropNames takesP) (hc : s.ChildNames takesC) (hs : s.PointsAt) :
    PointsAtNode s.node := by
  intro P n hn
  refine (c59_node hk hp hc n).mono fun e he => ?_
  rcases he with he | he
  · exact he.points hs hn
  · exact he.points hs hn

/-- **C60** for documents. -/
theorem c60_root (hk : s.Keeps) {takes} (hc : s.ChildNames takes) (hs : s.PointsAt) : PointsAtNodes s.root :=
  fun _ nodes hn => (c59_root hk hc nodes).mono fun _ he => he.points hs (by simp) hn

/-- **C60** for children that are unwrapped. -/
theorem c60_unwrap (hk : s.Keeps) {takesP takesC} (hp : s.PropNames takesP) (hc : s.ChildNames takesC) (hs : s.PointsAt)
    (f : AttrAccess) : PointsAtNode (unwrapNode s f) :=
  fun _ n hn => (c59_unwrap hk hp hc f n).mono fun _ he => he.points hs hn

/-- **C60** for flattened structs. -/
theorem c60_flatten (hk : s.Keeps) {takesP takesC} (hp : s.PropNames takesP) (hc : s.ChildNames takesC) (hs : s.PointsAt) :
    s.part.PointsAt where
  property P x name v hn hv := by
    refine ((c59_flatten hk hp hc x).1 name v).mono fun e he => ?_
    cases he with
    | value hi hp hf hr =>
      have := hs.properties _ (List.mem_of_getElem? hp)
      rw [hf, if_neg (by simp)] at this
      exact (this P _ hv).reported hr
    | flattened hi hp hf hr =>
      have := hs.properties _ (List.mem_of_getElem? hp)
      rw [hf, if_pos rfl] at this
      exact (this.property P _ _ _ hn hv).reported hr
  child P x n hn := by
    refine ((c59_flatten hk hp hc x).2 n).mono fun e he => ?_
    cases he with
    | node hi hp hm hr =>
      have := hs.children _ (List.mem_of_getElem? hp)
      rw [if_neg (by rcases hm with hm | hm <;> rw [hm] <;> simp)] at this
      exact (this P _ hn).reported hr
    | flag hi hp hm hr => exact hr.points hn
    | flattened hi hp hm hr =>
      have := hs.children _ (List.mem_of_getElem? hp)
      rw [if_pos hm] at this
      exact (this.child P _ _ hn).reported hr
    | duplicate _ _ _ _ =>
      intro l hl
      simp only [DErr.labels, List.mem_singleton] at hl
      subst hl
      exact hn.name

/-- **C60** for enums. -/
theorem c60_enum {variants : List (Variant E S V)} {takesP takesC} (hv : ∀ v ∈ variants, v.Lawful takesP takesC)
    (hp : ∀ v ∈ variants, match v.kind with
      | .unit => True
      | .nested _ inner => PointsAtNode inner
      | .tuple s => s.PointsAt) : PointsAtNode (enumNode variants) := by
  intro P n hn
  refine (c59_enum hv n).mono fun e he => ?_
  cases he with
  | unknown _ =>
    intro l hl
    simp only [DErr.labels, List.mem_singleton] at hl
    subst hl
    exact hn.name
  | flag _ _ _ hf => exact hf.points hn
  | nested hm _ hk _ hr =>
    have := hp _ hm
    rw [hk] at this
    exact (this P n hn).reported hr
  | tuple hm _ hk hr =>
    have := hp _ hm
    rw [hk] at this
    exact hr.points this hn

/-- The values of fields, in any mode. -/
theorem Impls.PointsAt.value {i : Impls E S V} (h : i.PointsAt) (mode : DecodeMode) (option : Bool) :
    PointsAtValue (decodeValue mode option i) := by
  cases mode with
  | normal => cases option <;> exact h.scalar
  | str => exact (c60_modes i option).1
  | bytes => exact (c60_modes i option).2

/-- **C60** for declarations: if the implementations for the types of the fields point at what they decode, so do
the decoders of the fields, also those with `unwrap`. -/
theorem c60_declared {fields : List (FieldDef E S V)} (h : Struct.new fields = .ok s)
    (hk : ∀ f ∈ fields, f.attrs.Keeps) (hp : ∀ f ∈ fields, f.attrs.PointsAt)
    (hn : ∀ f ∈ fields, ∀ a i, f.attrs = .unwrapped a i → i.NoFlatten) : s.PointsAt := by
  have step : ∀ {fields : List (FieldDef E S V)} {s : Struct E S V}, Struct.new fields = .ok s →
      (∀ f ∈ fields, f.attrs.base.impls.PointsAt) → (∀ f ∈ fields, ∀ d, f.decoder = .ok d → PointsAtNode d) → s.PointsAt := by
    intro fields s h hb hd
    obtain ⟨r1, r2, r3, r4, r5, r6, r7, r8, r9, -⟩ := c52_roles h
    constructor
    · intro x hx
      rw [r1, List.mem_filterMap] at hx
      obtain ⟨f, hf, hx⟩ := hx
      unfold FieldDef.asSpan at hx
      split at hx
      · cases hx; exact (hb f hf).span
      · cases hx
    · intro x hx
      rw [r4, List.mem_filterMap] at hx
      obtain ⟨f, hf, hx⟩ := hx
      unfold FieldDef.asArg at hx
      split at hx
      · cases hx; exact (hb f hf).value _ _
      · cases hx
    · intro x hx
      have hx := Option.mem_toList.2 hx; rw [r5, List.mem_filterMap] at hx
      obtain ⟨f, hf, hx⟩ := hx
      unfold FieldDef.asVarArgs at hx
      split at hx
      · cases hx; exact (hb f hf).value _ _
      · cases hx
    · intro x hx
      rw [r6, List.mem_filterMap] at hx
      obtain ⟨f, hf, hx⟩ := hx
      unfold FieldDef.asProp at hx
      split at hx
      · cases hx; exact (hb f hf).value _ _
      · cases hx; exact (hb f hf).value _ _
      · cases hx; exact (hb f hf).part
      · cases hx
    · intro x hx
      have hx := Option.mem_toList.2 hx; rw [r7, List.mem_filterMap] at hx
      obtain ⟨f, hf, hx⟩ := hx
      unfold FieldDef.asVarProps at hx
      split at hx
      · cases hx; exact (hb f hf).value _ _
      · cases hx
    · intro x hx
      rw [r8, List.mem_filterMap] at hx
      obtain ⟨f, hf, hx⟩ := hx
      unfold FieldDef.asChild at hx
      split at hx
      · rename_i hdec
        cases hx
        rw [if_neg (by dsimp only; split <;> simp)]
        exact hd f hf _ hdec
      · rename_i hdec
        cases hx; exact hd f hf _ hdec
      · cases hx; exact (hb f hf).part
      · cases hx
    · intro x hx
      have hx := Option.mem_toList.2 hx; rw [r9, List.mem_filterMap] at hx
      obtain ⟨f, hf, hx⟩ := hx
      unfold FieldDef.asVarChildren at hx
      split at hx
      · rename_i hdec
        cases hx; exact hd f hf _ hdec
      · cases hx
  have names : ∀ {fields : List (FieldDef E S V)} {s : Struct E S V}, Struct.new fields = .ok s →
      (∀ f ∈ fields, ∀ c p, f.mode ≠ some (.flatten c p)) → s.PropNames (fun p n => decide (n = p.name)) ∧
        s.ChildNames (fun p n => decide (n = p.name)) := by
    intro fields s h hn
    obtain ⟨-, -, -, -, -, r6, -, r8, -, -⟩ := c52_roles h
    constructor
    · intro x hx
      rw [r6, List.mem_filterMap] at hx
      obtain ⟨f, hf, hx⟩ := hx
      unfold FieldDef.asProp at hx
      split at hx
      · cases hx; exact fun _ => rfl
      · cases hx; exact fun _ => rfl
      · exact absurd ‹_› (hn f hf _ _)
      · cases hx
    · intro x hx
      rw [r8, List.mem_filterMap] at hx
      obtain ⟨f, hf, hx⟩ := hx
      unfold FieldDef.asChild at hx
      split at hx
      · cases hx
        rw [if_neg (by dsimp only; split <;> simp)]
        exact fun _ => rfl
      · cases hx; exact fun _ => rfl
      · exact absurd ‹_› (hn f hf _ _)
      · cases hx
  have one : ∀ (i : FieldAttrs E S V) (field : AttrAccess) d, unwrapFn field i = .ok d → i.Keeps → i.base.impls.PointsAt →
      (∀ c p, i.base.mode ≠ some (.flatten c p)) →
      (∀ d, (⟨field, false, false, i⟩ : FieldDef E S V).decoder = .ok d → PointsAtNode d) → PointsAtNode d := by
    intro i field d h hk hp hn hd
    obtain ⟨s, hs, rfl, -⟩ := unwrapFn_ok h
    have hs : Struct.new [⟨field, false, false, i⟩] = .ok s := by
      unfold Struct.new
      rw [List.foldlM_cons, hs]
      rfl
    have hnm := names hs (by simpa [FieldDef.mode] using hn)
    exact c60_unwrap (c52_keeps hs (by simpa using hk)) hnm.1 hnm.2 (step hs (by simpa using hp) (by simpa using hd)) field
  have unwrap : ∀ (i : FieldAttrs E S V) (field : AttrAccess) d, unwrapFn field i = .ok d → i.Keeps → i.PointsAt → i.NoFlatten →
      PointsAtNode d := by
    intro i
    induction i with
    | plain a =>
      intro field d h hk hp hn
      refine one _ field d h hk hp hn ?_
      intro d hd
      cases hd
      exact hp.node
    | unwrapped a i ih =>
      intro field d h hk hp hn
      exact one _ field d h hk hp.1 hn.1 fun d hd => ih _ _ hd hk.2 hp.2 hn.2
  refine step h (fun f hf => ?_) ?_
  · have := hp f hf
    cases ha : f.attrs with
    | plain a => rw [ha] at this; exact this
    | unwrapped a i => rw [ha] at this; exact this.1
  intro f hf d hd
  have hk := hk f hf
  have hp := hp f hf
  unfold FieldDef.decoder at hd
  cases ha : f.attrs with
  | plain a =>
    rw [ha] at hd hp
    cases hd
    exact hp.node
  | unwrapped a i =>
    rw [ha] at hd hk hp
    exact unwrap i _ _ hd hk.2 hp.2 (hn f hf a i ha)

end

/-- **C60** for `Vec<T>` as a document. -/
theorem c60_vec {d : NodeDecoder E S α} (hk : ∀ n, Keeps (d n)) (hd : PointsAtNode d) : PointsAtNodes (vecChildren d) := by
  intro P nodes hn
  refine Tells.only (Q := fun _ => True) ?_
  unfold vecChildren
  generalize ([] : List α) = acc
  induction nodes generalizing acc with
  | nil => exact .pure trivial
  | cons n ns ih =>
    intro c
    have h1 := Tells.of_only (hk n) (hd P n (hn n (by simp))) c
    rw [vecLoop]
    dsimp only
    cases hx : d n c with
    | ok v c1 =>
      rw [hx] at h1
      have h2 := Tells.bind (x := d n) (f := fun v => vecLoop d ns (acc ++ [v])) (Tells.of_only (hk n) (hd P n (hn n (by simp))))
        (fun v _ => ih (fun m hm => hn m (by simp [hm])) (acc ++ [v])) c
      rw [D.bind_ok hx] at h2
      exact h2
    | err e c1 =>
      rw [hx] at h1
      obtain ⟨⟨es, he, hes⟩, hP⟩ := h1
      have h2 := ih (fun m hm => hn m (by simp [hm])) acc (c1.emitError e)
      dsimp only
      have hes' : ∀ x ∈ es ++ [e], DErr.Points P x := by simpa [or_imp, forall_and] using ⟨hes, hP⟩
      cases hy : vecLoop d ns acc (c1.emitError e) with
      | ok v c2 =>
        rw [hy] at h2
        obtain ⟨⟨fs, hf, hfs⟩, -⟩ := h2
        refine ⟨⟨es ++ [e] ++ fs, by rw [hf, Ctx.emitError_errors, he]; simp, ?_⟩, trivial⟩
        intro x hx
        rcases List.mem_append.1 hx with hx | hx
        · exact hes' x hx
        · exact hfs x hx
      | err e2 c2 =>
        rw [hy] at h2
        obtain ⟨⟨fs, hf, hfs⟩, h3⟩ := h2
        refine ⟨⟨es ++ [e] ++ fs, by rw [hf, Ctx.emitError_errors, he]; simp, ?_⟩, h3⟩
        intro x hx
        rcases List.mem_append.1 hx with hx | hx
        · exact hes' x hx
        · exact hfs x hx
      | panic => trivial
    | panic => trivial

theorem points_of_parse {P : Type} {D' : Type} (d : ChildrenDecoder D' (Sp P) α) (hd : PointsAtNodes d) {nodes : List (SpannedNode (Sp P))}
    {G : Sp P → Prop} (hn : ∀ n ∈ nodes, AllSpans G n) {c0 : Ctx D' (Sp P)} (hs : c0.errors = []) {es : List (AnyErr P)}
    (h : (∃ v c, d nodes c0 = .ok v c ∧ c.errors ≠ [] ∧ es = c.errors.map .decode) ∨
         (∃ e c, d nodes c0 = .err e c ∧ es = (c.errors ++ [e]).map .decode)) {e : DErr (Sp P)} (he : .decode e ∈ es) :
    e.Points G := by
  have ho := hd G nodes hn c0
  rcases h with ⟨v, c, h1, -, rfl⟩ | ⟨e', c, h1, rfl⟩
  all_goals
    obtain ⟨fs, ⟨-, hf⟩, hp⟩ := ho (by rw [h1]; simp)
    rw [h1, hs, List.nil_append] at hf
    simp only [Out.errors] at hf
    rw [List.mem_map] at he
    obtain ⟨e'', hm, h2⟩ := he
    cases h2
    rw [hf] at hm
    exact hp _ hm

/-- **C60** for `parse`: every label of every decode error is at some characters `i .. j` of the text. -/
theorem c60_parse {Ty : TypeId → Type} (d : ChildrenDecoder (Extensions Ty) (Sp Nat) α) (hd : PointsAtNodes d)
    (setCtx : Ctx (Extensions Ty) (Sp Nat) → Ctx (Extensions Ty) (Sp Nat)) (hs : (setCtx Ctx.new).errors = [])
    (text : Str) (es : List (AnyErr Nat)) (h : parseWithContext setCtx d text = some (.error es)) (e : DErr (Sp Nat))
    (he : .decode e ∈ es) : ∀ l ∈ e.labels, ∃ i j, i < j ∧ j ≤ text.length ∧ l.2 = ⟨byteLen (text.take i), byteLen (text.take j)⟩ := by
  rw [c34_error_iff] at h
  rcases h with ⟨pes, -, rfl⟩ | ⟨doc, hdoc, h⟩
  · simp at he
  refine points_of_parse d hd (G := fun a => ∃ i j, i < j ∧ j ≤ text.length ∧ a = ⟨byteLen (text.take i), byteLen (text.take j)⟩)
    (nestedNodes_mem (o := byteSpan text 0 text.length).1 ?_) hs h he
  obtain ⟨b, hok, ht, hv⟩ := parse_sound hdoc
  rw [hv]
  refine body_nested (f := byteSpan text) (p := 0) (n := text.length) (i' := 0) (j' := text.length) (q := 0) b ?_ (Nat.le_refl _) (by omega) (Nat.le_refl _)
    (by rw [ht]; omega) hok
  intro i j i' j' _ h1 h2 h3 h4
  exact ⟨i, j, h2, by omega, rfl⟩

/-- **C60** with line spans: the labels have the lines and columns of some characters `i .. j` of the text. -/
theorem c60_parse_line {Ty : TypeId → Type} (width : Char → Nat) (strWidth : Str → Nat)
    (d : ChildrenDecoder (Extensions Ty) (Sp LinePos) α) (hd : PointsAtNodes d)
    (setCtx : Ctx (Extensions Ty) (Sp LinePos) → Ctx (Extensions Ty) (Sp LinePos)) (hs : (setCtx Ctx.new).errors = [])
    (text : Str) (es : List (AnyErr LinePos)) (h : parseWithContextLine width strWidth setCtx d text = some (.error es))
    (e : DErr (Sp LinePos)) (he : .decode e ∈ es) :
    ∀ l ∈ e.labels, ∃ i j, i < j ∧ j ≤ text.length ∧ l.2 = ⟨linePos width (text.take i), linePos width (text.take j)⟩ := by
  rw [c34_error_iff_line] at h
  rcases h with ⟨pes, -, rfl⟩ | ⟨doc, hdoc, h⟩
  · simp at he
  exact points_of_parse d hd (nestedNodes_mem.1 (c22_lines width strWidth text doc hdoc)) hs h he

section
open Demo

theorem Demo.num_points : num.PointsAt where
  scalar P v hv := by
    refine Tells.only (Q := fun _ => True) (Tells.bind (Tells.of_only (P := DErr.Points P) ?_ ?_) fun _ _ => .pure trivial)
    · have := num_keeps.scalar v
      refine Keeps.bind ?_ fun _ => ?_
      · unfold numTypeCheck
        split
        · exact Keeps.ite (Keeps.emit _) (Keeps.pure _)
        · exact Keeps.pure _
      · dsimp only
        split
        · split
          · exact Keeps.pure _
          · exact (Keeps.emit _).bind fun _ => Keeps.pure _
        · exact (Keeps.emit _).bind fun _ => Keeps.pure _
    · exact c60_scalar (c58_int_partial 64 .i64) P v hv
  node P n _ := Tells.only (Q := fun _ => True) (.pure trivial)
  part := ⟨fun _ _ _ _ _ _ => Tells.only (Q := fun _ => True) (.pure trivial), fun _ _ _ _ => Tells.only (Q := fun _ => True) (.pure trivial)⟩
  span P s _ := Tells.only (Q := fun _ => True) (.pure trivial)

theorem Demo.inner_points : inner.PointsAt where
  spans := by simp [inner]
  arguments := by simp [inner]
  varArgs := by simp [inner]
  properties := by simpa [inner] using num_points.value _ _
  varProps := by simp [inner]
  children := by simpa [inner] using num_points.node
  varChildren := by simp [inner]

theorem Demo.inner_propNames : inner.PropNames takesProp := by
  intro p hp
  simp only [inner, List.mem_singleton] at hp
  subst hp
  intro n; rfl

theorem Demo.innerImpls_points : innerImpls.PointsAt :=
  ⟨num_points.scalar, num_points.node, c60_flatten inner_keeps inner_propNames inner_childNames inner_points, num_points.span⟩

/-- The struct with fields of every kind, from its declaration. -/
theorem Demo.outer_points : outer.PointsAt := by
  have hk : ∀ f ∈ decl, f.attrs.Keeps := by
    have h1 := num_keeps
    have h2 := innerImpls_keeps
    simpa [decl, FieldAttrs.Keeps, attrs, flat] using ⟨h1, h2, h1, h2, h1⟩
  have hp : ∀ f ∈ decl, f.attrs.PointsAt := by
    have h1 := num_points
    have h2 := innerImpls_points
    simpa [decl, FieldAttrs.PointsAt, attrs, flat] using ⟨h1, h2, h1, h2, h1⟩
  refine c60_declared decl_ok hk hp ?_
  intro f hf a i h
  simp only [decl, List.mem_cons, List.not_mem_nil, or_false] at hf
  rcases hf with rfl | rfl | rfl | rfl | rfl | rfl | rfl | rfl | rfl | rfl | rfl | rfl | rfl | rfl | rfl | rfl <;> cases h

/-- The five errors about the sample point at its parts: the predicate says which spans these are. -/
example : AllSpans (· ∈ [0, 1, 2, 3, 4, 5, 6, 7, 8, 9, 77]) badSample ∧
    OnlyReports (DErr.Points (· ∈ [0, 1, 2, 3, 4, 5, 6, 7, 8, 9, 77])) (outer.node badSample) := by
  have h : AllSpans (· ∈ [0, 1, 2, 3, 4, 5, 6, 7, 8, 9, 77]) badSample := by
    simp [AllSpans, badSample, Node.Nested, NestedChildren, NestedNodes, Value.AllSpans]
  exact ⟨h, c60_node outer_keeps outer_propNames outer_childNames outer_points _ _ h⟩

/-- The nodes of a document that should all be flags. -/
example {Ty : TypeId → Type} : PointsAtNodes (vecChildren (checkFlagNode (E := Extensions Ty) (S := Sp Nat))) :=
  c60_vec (fun n => Keeps.checkFlagNode n) fun P n hn => (tells_flag n).only.mono fun _ he => he.points hn
/-- Of `ä 1` it is said that the argument, after three bytes, is not expected. -/
example : (parseWithContext (T := fun _ => Unit) id (vecChildren checkFlagNode) "ä 1".toList).map (fun r => match r with
    | .error es => es.map (fun e => match e with | .decode e => e.labels.map (·.2) | _ => [])
    | .ok _ => []) = some [[⟨3, 4⟩]] := by
  decide +kernel

end

end Knuffel
