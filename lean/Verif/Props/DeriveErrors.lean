import Verif.Props.Derive
import Verif.Props.Scalars
import Verif.Props.Decode
/-!
# Errors reach the top

C30, second half: an error recorded or returned by the decoder of a value, however
deep in the document, makes the whole `parse` fail.  `NeverClean d` says that `d`
never gives a value without reporting an error.
-/

set_option linter.unusedSectionVars false

namespace Knuffel
variable {E S V α β : Type}

theorem NeverClean.of_during {d : D E S α} (hn : NeverClean d) (hk : Keeps d) {c c' : Ctx E S} {x : α}
    (h : During c c' d x) : c'.errors ≠ c.errors := by
  intro hc
  obtain ⟨c1, c2, e1, h1, e2⟩ := h.clean hc hk
  exact hn c1 ⟨x, c2, h1, e2.trans e1.symm⟩

theorem NeverClean.bind {x : D E S α} (hx : NeverClean x) (hk : Keeps x) {f : α → D E S β} (hf : ∀ a, Keeps (f a)) :
    NeverClean (x >>= f) := by
  rintro c ⟨b, c', h, hc⟩
  rw [D.bind_ok_iff] at h
  obtain ⟨a, c1, h1, h2⟩ := h
  have k1 := hk.ok h1
  have k2 := (hf a).ok h2
  rw [hc] at k2
  exact hx c ⟨a, c1, h1, List.IsPrefix.eq_of_length_le k2 k1.length_le⟩

theorem NeverClean.bind_right {x : D E S α} (hk : Keeps x) {f : α → D E S β} (hf : ∀ a, NeverClean (f a))
    (hkf : ∀ a, Keeps (f a)) : NeverClean (x >>= f) := by
  rintro c ⟨b, c', h, hc⟩
  rw [D.bind_ok_iff] at h
  obtain ⟨a, c1, h1, h2⟩ := h
  have k1 := hk.ok h1
  have k2 := (hkf a).ok h2
  rw [hc] at k2
  have e : c1.errors = c.errors := List.IsPrefix.eq_of_length_le k2 k1.length_le
  exact hf a c1 ⟨b, c', h2, hc.trans e.symm⟩

theorem neverClean_of_reports {d : D E S α} (h : ∀ c, ∃ e, Reports d c [e]) : NeverClean d := by
  rintro c ⟨a, c', h1, h2⟩
  obtain ⟨e, -, h3⟩ := h c
  rw [h1] at h3
  simp only [Out.errors] at h3
  rw [h2] at h3
  simp at h3

/-! ### Values -/

/-- **C30.** A literal that does not write a value of the type is never accepted.
(`DecodesExactly` is proved for the builtin types in `c30_int`, `c30_float`,
`c30_bool` and `c30_text`; the `decode` of these types is the provided method.) -/
theorem c30_value {d : Scalar E S α} {kind : Kind} {Written : Literal → α → Prop} (hd : DecodesExactly d kind Written)
    (hp : ∀ v, d.decode v = (d.typeCheck v.typeName >>= fun _ => d.rawDecode v.literal))
    (hk : ∀ t, Keeps (d.typeCheck t)) (hr : ∀ l, Keeps (d.rawDecode l)) (val : Value S)
    (hv : ¬ ∃ v, Written val.literal.value v) : NeverClean (d.decode val) := by
  rw [hp]
  refine NeverClean.bind_right (hk _) (fun _ => ?_) (fun _ => hr _)
  refine neverClean_of_reports fun c => ?_
  obtain ⟨e, he, -⟩ := hd.2 c val.literal.span val.literal.value hv
  exact ⟨e, he⟩

theorem Keeps.numTypeCheck (m : BuiltinType) (r : Str) (t : Option (Spanned TypeName S)) : Keeps (numTypeCheck (E := E) m r t) := by
  unfold Knuffel.numTypeCheck
  split
  · split
    · exact Keeps.emit _
    · exact Keeps.pure _
  · exact Keeps.pure _

theorem Keeps.noTypeCheck (r : Str) (t : Option (Spanned TypeName S)) : Keeps (noTypeCheck (E := E) r t) := by
  unfold Knuffel.noTypeCheck
  split
  · exact Keeps.emit _
  · exact Keeps.pure _

theorem Keeps.emit_pure (e : DErr S) (a : α) : Keeps (D.emit e >>= fun _ => (Pure.pure a : D E S α)) :=
  (Keeps.emit _).bind fun _ => Keeps.pure _

theorem Keeps.intScalar (ptr : Nat) (t : IntTy) (l : Spanned Literal S) : Keeps ((intScalar (E := E) ptr t).rawDecode l) := by
  unfold Knuffel.intScalar Scalar.provided
  dsimp only
  split
  · split
    · exact Keeps.pure _
    · exact Keeps.emit_pure _ _
  · exact Keeps.emit_pure _ _

theorem Keeps.floatScalar {F : Type} (t : FloatTy) (round : Str → F) (zero : F) (l : Spanned Literal S) :
    Keeps ((floatScalar (E := E) t round zero).rawDecode l) := by
  unfold Knuffel.floatScalar Scalar.provided
  dsimp only
  split
  · split
    · exact Keeps.pure _
    · exact Keeps.emit_pure _ _
  · exact Keeps.emit_pure _ _

theorem Keeps.boolScalar (l : Spanned Literal S) : Keeps ((boolScalar (E := E)).rawDecode l) := by
  unfold Knuffel.boolScalar Scalar.provided
  dsimp only
  split
  · exact Keeps.pure _
  · exact Keeps.emit_pure _ _

theorem Keeps.textRaw (l : Spanned Literal S) : Keeps (textRaw (E := E) l) := by
  unfold Knuffel.textRaw
  split
  · exact Keeps.pure _
  · exact Keeps.emit_pure _ _

/-- **C30** for an integer field: only an integer literal that fits is accepted. -/
theorem c30_int_value (ptr : Nat) (t : IntTy) (val : Value S)
    (hv : ¬ ∃ r s v, val.literal.value = .int r s ∧ FitsAs ptr t r s v) : NeverClean ((intScalar (E := E) ptr t).decode val) :=
  c30_value (c30_int ptr t) (fun _ => rfl) (Keeps.numTypeCheck _ _) (Keeps.intScalar _ _) val
    (fun ⟨v, r, s, h⟩ => hv ⟨r, s, v, h⟩)

/-- **C30** for a float field. -/
theorem c30_float_value {F : Type} (t : FloatTy) (round : Str → F) (zero : F) (val : Value S)
    (hv : ¬ ∃ s, val.literal.value = .decimal s ∧ FloatText s) : NeverClean ((floatScalar (E := E) t round zero).decode val) :=
  c30_value (c30_float t round zero) (fun _ => rfl) (Keeps.numTypeCheck _ _) (Keeps.floatScalar _ _ _) val
    (fun ⟨_, s, h, h', _⟩ => hv ⟨s, h, h'⟩)

/-- **C30** for a `bool` field. -/
theorem c30_bool_value (val : Value S) (hv : ¬ ∃ b, val.literal.value = .bool b) : NeverClean ((boolScalar (E := E)).decode val) :=
  c30_value c30_bool (fun _ => rfl) (Keeps.noTypeCheck _) Keeps.boolScalar val hv

/-- **C30** for a field that holds a text. -/
theorem c30_text_value (d : Scalar E S Str) (hd : d ∈ textScalars) (val : Value S) (hv : ¬ ∃ s, val.literal.value = .string s) :
    NeverClean (d.decode val) := by
  have h := c30_text d hd
  simp only [textScalars, List.mem_cons, List.not_mem_nil, or_false] at hd
  rcases hd with rfl | rfl | rfl | rfl <;>
    exact c30_value h (fun _ => rfl) (Keeps.noTypeCheck _) Keeps.textRaw val hv

example : NeverClean ((intScalar (E := Unit) 64 .u8).decode ⟨none, ⟨(0 : Nat), .string ['x']⟩⟩) :=
  c30_int_value _ _ _ (by simp)
example : NeverClean ((boolScalar (E := Unit)).decode ⟨none, ⟨(0 : Nat), .null⟩⟩) := c30_bool_value _ (by simp)
example : NeverClean ((stringScalar (E := Unit)).decode ⟨none, ⟨(0 : Nat), .int .dec ['1']⟩⟩) :=
  c30_text_value _ (by simp [textScalars]) _ (by simp)
example {F : Type} (round : Str → F) (z : F) :
    NeverClean ((floatScalar (E := Unit) .f64 round z).decode ⟨none, ⟨(0 : Nat), .decimal "1e".toList⟩⟩) :=
  c30_float_value _ _ _ _ (by
    rintro ⟨s, h, hs⟩
    simp only [Literal.decimal.injEq] at h
    subst h
    rw [← floatSyntax_iff] at hs
    revert hs; decide)

/-! ### From the field to the node -/

open Demo in
/-- A text for a field of type `i64`. -/
theorem Demo.bad : NeverClean (decodeValue .normal false num (str ['x'])) :=
  NeverClean.bind (c30_int_value 64 .i64 _ (by simp [str]))
    ((Keeps.numTypeCheck _ _ _).bind fun _ => Keeps.intScalar _ _ _) fun _ => Keeps.pure _

section

/-- **C30.** An argument that is not accepted by its field. -/
theorem c30_argument [Externals] {s : Struct E S V} (hk : s.Keeps) (hd : s.allFields.Nodup) {i : Nat} {a : Arg E S V}
    (ha : s.arguments[i]? = some a) {node : SpannedNode S} {arg : Value S} (harg : node.value.arguments[i]? = some arg)
    (hn : NeverClean (decodeValue a.decode a.option a.impls arg)) : NeverClean (s.node node) := by
  rintro c ⟨v, c', h, hc⟩
  have := (c38_assigned hk hd h).1 i a ha
  rw [harg] at this
  exact hn.of_during (Keeps.decodeValue (hk.arguments _ (List.mem_of_getElem? ha)) _ _ _) this hc

open Demo in
example : NeverClean (outer.node (nd 'k' [str ['x']])) :=
  c30_argument outer_keeps outer_fields (i := 0) rfl (arg := str ['x']) rfl bad

theorem Each2.mem_left {R : α → β → Prop} {as : List α} {bs : List β} (h : Each2 R as bs) {a : α} (ha : a ∈ as) :
    ∃ b ∈ bs, R a b := by
  induction h with
  | nil => simp at ha
  | cons h _ ih =>
    rcases List.mem_cons.1 ha with rfl | ha
    · exact ⟨_, by simp, h⟩
    · obtain ⟨b, hb, hr⟩ := ih ha
      exact ⟨b, by simp [hb], hr⟩

theorem Steps.mem {σ ι : Type} {R : ι → σ → σ → Prop} {l : List ι} {x y : σ} (h : Steps R l x y) {i : ι} (hi : i ∈ l) :
    ∃ a b, R i a b := by
  induction h with
  | nil => simp at hi
  | cons h _ ih =>
    rcases List.mem_cons.1 hi with rfl | hi
    · exact ⟨_, _, h⟩
    · exact ih hi

/-- **C30.** One of the arguments that go to the `arguments` field. -/
theorem c30_arguments [Externals] {s : Struct E S V} (hk : s.Keeps) (hd : s.allFields.Nodup) {va : VarArgs E S V} (hva : s.varArgs = some va)
    {node : SpannedNode S} {i : Nat} {arg : Value S} (hi : s.arguments.length ≤ i) (harg : node.value.arguments[i]? = some arg)
    (hn : NeverClean (decodeValue va.decode false va.impls arg)) : NeverClean (s.node node) := by
  rintro c ⟨v, c', h, hc⟩
  obtain ⟨xs, -, hx⟩ := (c38_assigned hk hd h).2.1 va hva
  have hm : arg ∈ node.value.arguments.drop s.arguments.length := by
    refine List.mem_of_getElem? (i := i - s.arguments.length) ?_
    rw [List.getElem?_drop, Nat.add_sub_cancel' hi, harg]
  obtain ⟨x, -, hr⟩ := hx.mem_left hm
  exact hn.of_during (Keeps.decodeValue (hk.varArgs _ hva) _ _ _) hr hc

open Demo in
example : NeverClean (outer.node (nd 'k' [int ['1'], int ['2'], int ['3'], str ['x']])) :=
  c30_arguments outer_keeps outer_fields rfl (i := 3) (by decide) (arg := str ['x']) rfl bad

/-- **C30.** A property that is not accepted by its field. -/
theorem c30_property [Externals] {s : Struct E S V} (hk : s.Keeps) (hd : s.allFields.Nodup) {takes} (hn : s.PropNames takes)
    {node : SpannedNode S} (hu : (node.value.properties.map (·.1.value)).Nodup)
    {i : Nat} {p : Prop' E S V} (hp : s.properties[i]? = some p) (hf : p.flatten = false)
    (hfirst : s.propField takes p.name = some i) {q : Spanned Str S × Value S} (hq : q ∈ node.value.properties)
    (hqn : q.1.value = p.name) (hnc : NeverClean (decodeValue p.decode p.option p.impls q.2)) : NeverClean (s.node node) := by
  rintro c ⟨v, c', h, hc⟩
  exact hnc.of_during (Keeps.decodeValue (hk.properties _ (List.mem_of_getElem? hp)) _ _ _)
    ((c39_named hk hd hn hu h hp hf hfirst).1 q hq hqn) hc

open Demo in
example : NeverClean (outer.node ⟨0, .mk none ⟨0, ['k']⟩ [] [(⟨0, ['p']⟩, str ['x'])] none⟩) :=
  c30_property outer_keeps outer_fields outer_propNames (by simp [Node.properties]) (i := 0) rfl rfl (by decide)
    (q := (⟨0, ['p']⟩, str ['x'])) (by simp [Node.properties]) rfl bad

/-- **C30.** A property that is not accepted by the flattened struct it belongs to. -/
theorem c30_flat_property [Externals] {s : Struct E S V} (hk : s.Keeps) (hd : s.allFields.Nodup) {takes} (hn : s.PropNames takes)
    {node : SpannedNode S} {i : Nat} {p : Prop' E S V} (hp : s.properties[i]? = some p) (hf : p.flatten = true)
    {q : Spanned Str S × Value S} (hq : q ∈ s.propsFor takes node (some i))
    (hnc : ∀ x, NeverClean (p.impls.part.insertProperty x q.1 q.2)) : NeverClean (s.node node) := by
  rintro c ⟨v, c', h, hc⟩
  obtain ⟨a, b, hr⟩ := (c39_flatten hk hd hn h hp hf).mem hq
  exact (hnc a).of_during ((hk.properties _ (List.mem_of_getElem? hp)).insertProperty _ _ _) hr hc

open Demo in
/-- An integer for the property `u`, a text field of the flattened struct. -/
example : NeverClean (outer.node ⟨0, .mk none ⟨0, ['k']⟩ [] [(⟨0, ['u']⟩, int ['1'])] none⟩) :=
  c30_flat_property outer_keeps outer_fields outer_propNames (i := 2) rfl rfl (q := (⟨0, ['u']⟩, int ['1']))
    (by simp [Struct.propsFor, Node.properties]; decide)
    (fun x => by
      rintro c ⟨v, c', h, hc⟩
      have h : Out.ok (true, x.setField (fld 'u') .none) (c.emitError _) = Out.ok v c' := h
      cases h
      simp at hc)

/-- **C30.** One of the properties that go to the `properties` field. -/
theorem c30_properties [Externals] {s : Struct E S V} (hk : s.Keeps) (hd : s.allFields.Nodup) {takes} (hn : s.PropNames takes)
    {node : SpannedNode S} {vp : VarProps E S V} (hvp : s.varProps = some vp)
    {q : Spanned Str S × Value S} (hq : q ∈ s.propsFor takes node none)
    (hnc : NeverClean (decodeValue vp.decode false vp.impls q.2)) : NeverClean (s.node node) := by
  rintro c ⟨v, c', h, hc⟩
  obtain ⟨xs, -, hx⟩ := (c39_rest hk hd hn h).1 vp hvp
  obtain ⟨x, -, -, hr⟩ := hx.mem_left hq
  exact hnc.of_during (Keeps.decodeValue (hk.varProps _ hvp) _ _ _) hr hc

open Demo in
example : NeverClean (outer.node ⟨0, .mk none ⟨0, ['k']⟩ [] [(⟨0, ['o']⟩, str ['x'])] none⟩) :=
  c30_properties outer_keeps outer_fields outer_propNames rfl (q := (⟨0, ['o']⟩, str ['x']))
    (by simp [Struct.propsFor, Node.properties]; decide) bad

theorem ChildGets.neverClean {ch : Child E S V} (hk : ch.impls.Keeps ∧ ∀ n, Keeps (ch.decoder n)) {mine : List (SpannedNode S)}
    {x : FVal V} {c c' : Ctx E S} (h : ChildGets c c' ch mine x) {n : SpannedNode S} (hn : n ∈ mine)
    (hnc : match ch.mode with
      | .normal | .multi => NeverClean (ch.decoder n)
      | .bool => NeverClean (E := E) (checkFlagNode n)
      | .flatten => ∀ x, NeverClean (ch.impls.part.insertChild x n)) : c'.errors ≠ c.errors := by
  unfold ChildGets at h
  cases hm : ch.mode <;> rw [hm] at h hnc <;> dsimp only at h hnc
  · match mine with
    | [] => simp at hn
    | [m] =>
      obtain rfl : n = m := by simpa using hn
      obtain ⟨y, hy, -⟩ := h
      exact hnc.of_during (hk.2 _) hy
    | _ :: _ :: _ => exact h.elim
  · obtain ⟨a, b, hr⟩ := h.mem hn
    exact (hnc a).of_during (hk.1.insertChild _ _) hr
  · obtain ⟨xs, hx, -⟩ := h
    obtain ⟨y, -, hr⟩ := hx.mem_left hn
    exact hnc.of_during (hk.2 _) hr
  · exact hnc.of_during (Keeps.checkFlagNode _) (h.2.1 n hn)

/-- **C30.** A child node that is not accepted by its field, in a node and at the top of
a document. -/
theorem c30_child [Externals] {s : Struct E S V} (hk : s.Keeps) (hd : s.allFields.Nodup) {takes} (hn : s.ChildNames takes)
    {i : Nat} {ch : Child E S V} (hch : s.children[i]? = some ch) {nodes : List (SpannedNode S)} {n : SpannedNode S}
    (hnn : n ∈ s.nodesFor takes nodes (some i))
    (hnc : match ch.mode with
      | .normal | .multi => NeverClean (ch.decoder n)
      | .bool => NeverClean (E := E) (checkFlagNode n)
      | .flatten => ∀ x, NeverClean (ch.impls.part.insertChild x n)) :
    NeverClean (s.root nodes) ∧ ∀ node, node.value.childNodes = nodes → NeverClean (s.node node) := by
  have hk' := hk.children _ (List.mem_of_getElem? hch)
  constructor
  · rintro c ⟨v, c', h, hc⟩
    exact ((c40_root hk hd hn h).1 i ch hch).neverClean hk' hnn hnc hc
  · rintro node rfl c ⟨v, c', h, hc⟩
    exact ((c40_assigned hk hd hn h).1 i ch hch).neverClean hk' hnn hnc hc

open Demo in
/-- A flag node with an argument. -/
example : NeverClean (outer.root [nd 'v' [int ['1']]]) :=
  (c30_child outer_keeps outer_fields outer_childNames (i := 2) rfl (n := nd 'v' [int ['1']])
    (by simp [Struct.nodesFor]; decide)
    (by
      rintro c ⟨v, c', h, hc⟩
      rw [checkFlagNode_errors h] at hc
      simp [nd, Node.arguments] at hc)).1

/-- **C30.** A child node that is not accepted by the `children` field. -/
theorem c30_children [Externals] {s : Struct E S V} (hk : s.Keeps) (hd : s.allFields.Nodup) {takes} (hn : s.ChildNames takes)
    {vc : VarChildren E S V} (hvc : s.varChildren = some vc) {nodes : List (SpannedNode S)} {n : SpannedNode S}
    (hnn : n ∈ s.nodesFor takes nodes none) (hnc : NeverClean (vc.decoder n)) :
    NeverClean (s.root nodes) ∧ ∀ node, node.value.childNodes = nodes → NeverClean (s.node node) := by
  have hk' := hk.varChildren _ hvc
  constructor
  · rintro c ⟨v, c', h, hc⟩
    obtain ⟨xs, -, hx⟩ := (c40_root hk hd hn h).2.1 vc hvc
    obtain ⟨x, -, hr⟩ := hx.mem_left hnn
    exact hnc.of_during (hk' _) hr hc
  · rintro node rfl c ⟨v, c', h, hc⟩
    obtain ⟨xs, -, hx⟩ := (c40_assigned hk hd hn h).2.1 vc hvc
    obtain ⟨x, -, hr⟩ := hx.mem_left hnn
    exact hnc.of_during (hk' _) hr hc

open Demo in
example (n : SpannedNode Nat) (d : NodeDecoder Unit Nat (FVal Int)) (hk : ∀ n, Keeps (d n)) (h : NeverClean (d n)) :
    NeverClean (Struct.root { varChildren := some ⟨fld 'w', d⟩ } [n]) :=
  (c30_children ⟨by simp, by simp, by simp, by simp, by simp, by simp, by simp, by simp, by simpa using hk⟩ (by simp [Struct.allFields])
    (takes := fun _ _ => false) (by intro _ h; simp at h) rfl (n := n) (by simp [Struct.nodesFor, Struct.childField]) h).1

/-- **C30.** A node of the document is not accepted by `Vec<T>`. -/
theorem c30_vec {d : NodeDecoder E S α} (hk : ∀ n, Keeps (d n)) {nodes : List (SpannedNode S)} {n : SpannedNode S}
    (hn : n ∈ nodes) (hnc : NeverClean (d n)) : NeverClean (vecChildren d nodes) := by
  rintro c ⟨vs, c', h, hc⟩
  rw [(c35_visits _ _ _).1] at h
  have keep : ∀ {c nodes vs c'}, Visits d c nodes vs c' → c.errors <+: c'.errors := by
    intro c nodes vs c' h
    induction h with
    | nil => exact List.prefix_rfl
    | ok h _ ih => exact ((hk _).ok h).trans ih
    | err h _ ih => exact ((hk _).err h).trans ((List.prefix_append _ _).trans ih)
  have : ∀ {c nodes vs c'}, Visits d c nodes vs c' → n ∈ nodes → c.errors.length < c'.errors.length := by
    intro c nodes vs c' h
    induction h with
    | nil => intro h; simp at h
    | @ok c c1 c2 m ms v vs h hs ih =>
      intro hm
      have h1 := (hk _).ok h
      rcases List.mem_cons.1 hm with rfl | hm
      · have h2 := (keep hs).length_le
        have : c1.errors ≠ c.errors := fun e => hnc c ⟨v, c1, h, e⟩
        have : c.errors.length ≠ c1.errors.length := fun e => this (h1.eq_of_length e).symm
        have := h1.length_le
        omega
      · have := ih hm
        have := h1.length_le
        omega
    | err h hs ih =>
      intro hm
      have h1 := ((hk _).err h).length_le
      have h2 := (keep hs).length_le
      simp at h2
      omega
  have := this h hn
  rw [hc] at this
  omega

open Demo in
example : NeverClean (vecChildren outer.node [nd 'k', nd 'k' [str ['x']]]) :=
  c30_vec outer_keeps.node (n := nd 'k' [str ['x']]) (by simp)
    (c30_argument outer_keeps outer_fields (i := 0) rfl (arg := str ['x']) rfl bad)

/-- **C30.** The content of a child node that is unwrapped is not accepted. -/
theorem c30_unwrap [Externals] {s : Struct E S V} (hk : s.Keeps) {node : SpannedNode S} (h : NeverClean (decodeContent s node))
    (f : AttrAccess) : NeverClean (unwrapNode s f node) :=
  h.bind (Keeps.decodeContent hk _) fun _ => Keeps.pure _

end

/-! ### From the nodes to the result -/

/-- **C30.** If the nodes are not accepted, `parse` does not return a value, but errors or
a panic of a decoder; never a panic if the decoders do not panic. -/
theorem c30_parse {Ty : TypeId → Type} (dec : ChildrenDecoder (Extensions Ty) (Sp Nat) α) (text : Str)
    (doc : Document (Sp Nat)) (hdoc : parseAst text = some (.ok doc)) (hnc : NeverClean (dec doc.nodes)) :
    (∀ v, parseDecode dec text ≠ some (.ok v)) ∧
    ((∀ c, dec doc.nodes c ≠ .panic) → ∃ es, es ≠ [] ∧ parseDecode dec text = some (.error es)) := by
  have key : ∀ v, parseDecode dec text ≠ some (.ok v) := by
    intro v h
    rw [c34_parse] at h
    obtain ⟨doc', c, h1, h2, h3⟩ := h
    rw [hdoc] at h1
    cases h1
    exact hnc _ ⟨v, c, h2, h3⟩
  refine ⟨key, fun hp => ?_⟩
  cases hr : parseDecode dec text with
  | none =>
    have := (c34_total id dec text).1 hr
    obtain ⟨doc', h1, h2⟩ := this
    rw [hdoc] at h1
    cases h1
    exact absurd h2 (hp _)
  | some r =>
    cases r with
    | ok v => exact absurd hr (key v)
    | error es =>
      refine ⟨es, ?_, rfl⟩
      rcases (c34_error_iff id dec text es).1 hr with ⟨pes, h1, -⟩ | ⟨doc', -, ⟨v, c, -, h3, rfl⟩ | ⟨e, c, -, rfl⟩⟩
      · rw [hdoc] at h1; cases h1
      · simpa using h3
      · simp

/-- **C30** for `decode::node`. -/
theorem c30_node (empty : E) (dec : NodeDecoder E S α) (ast : SpannedNode S) (hnc : NeverClean (dec ast)) :
    ∀ v, decodeNodeTop empty dec ast ≠ some (.ok v) := by
  intro v h
  rw [(c34_node empty dec ast).1] at h
  obtain ⟨c, h1, h2⟩ := h
  exact hnc _ ⟨v, c, h1, h2⟩

example (n : SpannedNode S) (v : Int) :
    decodeNodeTop [] (fun _ => (intScalar (E := List Nat) 64 .u8).rawDecode ⟨n.span, .null⟩) n ≠ some (.ok v) :=
  c30_node _ _ n (neverClean_of_reports fun _ => ⟨_, reports_of_ok rfl⟩) v

end Knuffel
