import Verif.Theory.DeriveDemo
/-!
# Derived structs

C38 (arguments), C39 (properties), C40 (children), C41 (flags), C51 (span, name
and type name of the node).

`s` is any struct description: any number of fields of every kind.  `v.field f`
is the field `f` of the decoded struct `v`.  The field names are different
(`s.allFields.Nodup`) and no implementation takes back errors that were recorded
(`s.Keeps`): the latter cannot be done in Rust, as `Context::errors` is private.
`During c c' d x` says that in the run from context `c` to context `c'`, `d`
was run and gave `x`.
-/

set_option linter.unusedSectionVars false

namespace Knuffel
variable {E S V α : Type}

/-! ### C38 -/

/-- Each argument field gets what is decoded from the argument at its position,
and if there is none, its default or `None`; the `arguments` field gets what is
decoded from all further arguments in order; if there is no such field there
are no further arguments. -/
theorem c38_assigned [Externals] {s : Struct E S V} (hk : s.Keeps) (hd : s.allFields.Nodup) {node : SpannedNode S} {c c' : Ctx E S}
    {v : FVal V} (h : s.node node c = .ok v c') :
    (∀ (i : Nat) (a : Arg E S V), s.arguments[i]? = some a →
      match node.value.arguments[i]? with
      | some arg => During c c' (decodeValue a.decode a.option a.impls arg) (v.field a.field)
      | none => absent a.default a.option = some (v.field a.field)) ∧
    (∀ va, s.varArgs = some va → ∃ xs, v.field va.field = .list xs ∧
      Each2 (fun arg x => During c c' (decodeValue va.decode false va.impls arg) x)
        (node.value.arguments.drop s.arguments.length) xs) ∧
    (s.varArgs = none → node.value.arguments.length ≤ s.arguments.length) := by
  have h0 := h
  obtain ⟨sp, a, p, ch, c1, c2, c3, h1, h2, h3, h4, rfl⟩ := Struct.node_parts h
  have hfield := fun {f x} => Struct.node_field (f := f) (x := x) hk hd h0 rfl
  have k1 := (Keeps.decodeSpecials hk _).ok h1
  have k2 := (Keeps.decodeProps hk _).ok h3
  have k3 := (Keeps.decodeChildren hk _ _).ok h4
  obtain ⟨-, g1, g2, g3⟩ := decodeArgs_ok hk h2
  refine ⟨?_, ?_, g3⟩
  · intro i a ha
    obtain ⟨x, hx, hg⟩ := g1 i a ha
    have := hfield (f := a.field) (x := x) (by simp [hx])
    rw [this]
    exact hg.mono k1 (k2.trans k3)
  · intro va hva
    obtain ⟨xs, hx, hg⟩ := g2 va hva
    exact ⟨xs, hfield (by simp [hx]), hg.imp fun _ _ hh => hh.mono k1 (k2.trans k3)⟩

open Demo in
/-- Its hypotheses are met by a struct with fields of every kind and a node with more
arguments than argument fields: `3` and `4` go to the field `r`. -/
example : ∃ xs, sampleVal.field (fld 'r') = .list xs ∧
    Each2 (fun arg x => During ⟨[], ()⟩ ⟨[], ()⟩ (decodeValue .normal false num arg) x) [int ['3'], int ['4']] xs :=
  (c38_assigned outer_keeps outer_fields sample_ok).2.1 _ rfl

/-- A surplus argument is an error. -/
theorem c38_surplus [Externals] {s : Struct E S V} (hk : s.Keeps) {node : SpannedNode S} (hv : s.varArgs = none)
    (hs : s.arguments.length < node.value.arguments.length) (c : Ctx E S) : ∀ v c', s.node node c ≠ .ok v c' := by
  intro v c' h
  obtain ⟨sp, a, p, ch, c1, c2, c3, h1, h2, h3, h4, rfl⟩ := Struct.node_parts h
  obtain ⟨-, -, -, g3⟩ := decodeArgs_ok hk h2
  have := g3 hv
  omega

open Demo in
example (c) : ∀ v c', inner.node (nd 'k' [int ['1']]) c ≠ .ok v c' := c38_surplus inner_keeps rfl (by decide) c

/-- A missing argument is an error unless the field is optional or has a default. -/
theorem c38_missing [Externals] {s : Struct E S V} (hk : s.Keeps) {node : SpannedNode S} {i : Nat} {a : Arg E S V}
    (ha : s.arguments[i]? = some a) (hs : node.value.arguments.length ≤ i) (ho : a.option = false) (hdf : a.default = none)
    (c : Ctx E S) : ∀ v c', s.node node c ≠ .ok v c' := by
  intro v c' h
  obtain ⟨sp, as, p, ch, c1, c2, c3, h1, h2, h3, h4, rfl⟩ := Struct.node_parts h
  obtain ⟨-, g1, -, -⟩ := decodeArgs_ok hk h2
  obtain ⟨x, -, hx⟩ := g1 i a ha
  rw [List.getElem?_eq_none hs] at hx
  simp [ArgGets, absent, ho, hdf] at hx

open Demo in
example (c) : ∀ v c', outer.node (nd 'k') c ≠ .ok v c' := c38_missing outer_keeps (i := 0) rfl (by decide) rfl rfl c

/-- There are no other reasons for which the arguments are refused: the decoder
of a field refused its argument, the argument of a field that is neither
optional nor has a default is missing, or there is a surplus argument. -/
theorem c38_refused [Externals] {s : Struct E S V} (hk : s.Keeps) {node : SpannedNode S} {c : Ctx E S} {r}
    (h : (decodeArgs s node c).stop = some r) :
    (∃ (i : Nat) (a : Arg E S V) (arg : Value S), s.arguments[i]? = some a ∧ node.value.arguments[i]? = some arg ∧
      StopsIn c (decodeValue a.decode a.option a.impls arg) r) ∨
    (∃ (va : VarArgs E S V) (i : Nat) (arg : Value S), s.varArgs = some va ∧ s.arguments.length ≤ i ∧
      node.value.arguments[i]? = some arg ∧ StopsIn c (decodeValue va.decode false va.impls arg) r) ∨
    (∃ c', c.errors <+: c'.errors ∧
      ((∃ (i : Nat) (a : Arg E S V), s.arguments[i]? = some a ∧ node.value.arguments.length ≤ i ∧
        absent a.default a.option = none ∧ r = some (.missing node.value.nodeName.span (argError a.field), c')) ∨
       (∃ arg, s.varArgs = none ∧ node.value.arguments[s.arguments.length]? = some arg ∧
        r = some (.unexpected arg.literal.span "argument".toList "unexpected argument".toList, c')))) :=
  decodeArgs_stop hk h

open Demo in
example : (decodeArgs inner (nd 'k' [int ['1']]) ⟨[], ()⟩).stop =
    some (some (.unexpected 0 "argument".toList "unexpected argument".toList, ⟨[], ()⟩)) := rfl

/-! ### C39 -/

/-- A property field gets what is decoded from the property with its name, if it
is the first field that takes that name; if the node has no such property it
gets its default or `None`. -/
theorem c39_named [Externals] {s : Struct E S V} (hk : s.Keeps) (hd : s.allFields.Nodup) {takes} (hn : s.PropNames takes)
    {node : SpannedNode S} (hu : (node.value.properties.map (·.1.value)).Nodup) {c c' : Ctx E S} {v : FVal V}
    (h : s.node node c = .ok v c') {i : Nat} {p : Prop' E S V} (hp : s.properties[i]? = some p) (hf : p.flatten = false)
    (hfirst : s.propField takes p.name = some i) :
    (∀ q ∈ node.value.properties, q.1.value = p.name →
      During c c' (decodeValue p.decode p.option p.impls q.2) (v.field p.field)) ∧
    ((∀ q ∈ node.value.properties, q.1.value ≠ p.name) → absent p.default p.option = some (v.field p.field)) := by
  have h0 := h
  obtain ⟨sp, a, ps, ch, c1, c2, c3, h1, h2, h3, h4, rfl⟩ := Struct.node_parts h
  have hfield := fun {f x} => Struct.node_field (f := f) (x := x) hk hd h0 rfl
  have k1 := ((Keeps.decodeSpecials hk _).ok h1).trans ((Keeps.decodeArgs hk _).ok h2)
  have k3 := (Keeps.decodeChildren hk _ _).ok h4
  obtain ⟨-, g1, -, -⟩ := decodeProps_ok hk hn h3
  obtain ⟨x, hx, hg⟩ := g1 i p hp
  have hv := hfield (f := p.field) (x := x) (by simp [hx])
  rw [hv]
  rw [if_neg (by simp [hf])] at hg
  -- the properties of this field are those with its name
  have own : ∀ q : Spanned Str S × Value S, s.propField takes q.1.value = some i ↔ q.1.value = p.name := by
    intro q
    constructor
    · intro hq
      obtain ⟨p', hp', ht⟩ := propField_get hq
      rw [hp] at hp'
      simp only [Option.some.injEq] at hp'
      subst hp'
      have := hn p (List.mem_of_getElem? hp)
      rw [if_neg (by simp [hf])] at this
      rw [this] at ht
      simpa using ht
    · intro hq; rw [hq]; exact hfirst
  have hmine : s.propsFor takes node (some i) = node.value.properties.filter fun q => q.1.value = p.name := by
    unfold Struct.propsFor
    congr 1
    funext q
    simp [own q]
  rw [hmine] at hg
  constructor
  · intro q hq hqn
    have : node.value.properties.filter (fun q => q.1.value = p.name) = [q] := by
      clear hmine hg
      generalize node.value.properties = l at hu hq
      induction l with
      | nil => simp at hq
      | cons r l ih =>
        rw [List.map_cons, List.nodup_cons] at hu
        rcases List.mem_cons.1 hq with rfl | hq
        · rw [List.filter_cons_of_pos (by simpa using hqn)]
          congr 1
          rw [List.filter_eq_nil_iff]
          intro t ht htn
          simp only [decide_eq_true_eq] at htn
          exact hu.1 (List.mem_map.2 ⟨t, ht, htn.trans hqn.symm⟩)
        · rw [List.filter_cons_of_neg]
          · exact ih hu.2 hq
          · simp only [decide_eq_true_eq]
            intro hr
            exact hu.1 (List.mem_map.2 ⟨q, hq, hqn.trans hr.symm⟩)
    rw [this] at hg
    exact During.mono k1 hg k3
  · intro hnone
    have : node.value.properties.filter (fun q => q.1.value = p.name) = [] := by
      rw [List.filter_eq_nil_iff]
      intro t ht
      simpa using hnone t ht
    rw [this] at hg
    exact hg

open Demo in
example : During ⟨[], ()⟩ ⟨[], ()⟩ (decodeValue .normal false num (int ['5'])) (sampleVal.field (fld 'p')) :=
  (c39_named outer_keeps outer_fields outer_propNames (by decide) sample_ok (i := 0) rfl rfl (by decide)).1
    (⟨0, ['p']⟩, int ['5']) (by simp [sample, Node.properties]) rfl
open Demo in
example : absent (V := Int) none true = some (sampleVal.field (fld 'q')) :=
  (c39_named outer_keeps outer_fields outer_propNames (by decide) sample_ok (i := 1) rfl rfl (by decide)).2
    (by simp [sample, Node.properties])

/-- A flattened field gets exactly the properties that belong to it, in order. -/
theorem c39_flatten [Externals] {s : Struct E S V} (hk : s.Keeps) (hd : s.allFields.Nodup) {takes} (hn : s.PropNames takes)
    {node : SpannedNode S} {c c' : Ctx E S} {v : FVal V}
    (h : s.node node c = .ok v c') {i : Nat} {p : Prop' E S V} (hp : s.properties[i]? = some p) (hf : p.flatten = true) :
    Steps (fun q x y => During c c' (p.impls.part.insertProperty x q.1 q.2) (true, y))
      (s.propsFor takes node (some i)) p.impls.default (v.field p.field) := by
  have h0 := h
  obtain ⟨sp, a, ps, ch, c1, c2, c3, h1, h2, h3, h4, rfl⟩ := Struct.node_parts h
  have hfield := fun {f x} => Struct.node_field (f := f) (x := x) hk hd h0 rfl
  have k1 := ((Keeps.decodeSpecials hk _).ok h1).trans ((Keeps.decodeArgs hk _).ok h2)
  have k3 := (Keeps.decodeChildren hk _ _).ok h4
  obtain ⟨-, g1, -, -⟩ := decodeProps_ok hk hn h3
  obtain ⟨x, hx, hg⟩ := g1 i p hp
  rw [hfield (f := p.field) (x := x) (by simp [hx])]
  rw [if_pos hf] at hg
  exact Steps.imp hg fun _ _ _ hh => hh.mono k1 k3

open Demo in
/-- The flattened field gets the property `u`. -/
example : Steps (fun q x y => During ⟨[], ()⟩ ⟨[], ()⟩ (inner.part.insertProperty x q.1 q.2) (true, y))
    [(⟨0, ['u']⟩, str ['a', 'b'])] innerImpls.default (sampleVal.field (fld 'f')) :=
  c39_flatten outer_keeps outer_fields outer_propNames sample_ok (i := 2) rfl rfl

/-- All other properties go to the `properties` field, in order, each with its
key and its value; if there is no such field, there are no other properties. -/
theorem c39_rest [Externals] {s : Struct E S V} (hk : s.Keeps) (hd : s.allFields.Nodup) {takes} (hn : s.PropNames takes)
    {node : SpannedNode S} {c c' : Ctx E S} {v : FVal V} (h : s.node node c = .ok v c') :
    (∀ vp, s.varProps = some vp → ∃ ps, v.field vp.field = .pairs ps ∧
      Each2 (fun q kv => vp.impls.keyFromStr q.1.value = .ok kv.1 ∧
        During c c' (decodeValue vp.decode false vp.impls q.2) kv.2) (s.propsFor takes node none) ps) ∧
    (s.varProps = none → ∀ q ∈ node.value.properties, (s.propField takes q.1.value).isSome) := by
  have h0 := h
  obtain ⟨sp, a, ps, ch, c1, c2, c3, h1, h2, h3, h4, rfl⟩ := Struct.node_parts h
  have hfield := fun {f x} => Struct.node_field (f := f) (x := x) hk hd h0 rfl
  have k1 := ((Keeps.decodeSpecials hk _).ok h1).trans ((Keeps.decodeArgs hk _).ok h2)
  have k3 := (Keeps.decodeChildren hk _ _).ok h4
  obtain ⟨-, -, g2, g3⟩ := decodeProps_ok hk hn h3
  refine ⟨?_, ?_⟩
  · intro vp hvp
    obtain ⟨xs, hx, hg⟩ := g2 vp hvp
    exact ⟨xs, hfield (by simp [hx]), hg.imp fun _ _ hh => ⟨hh.1, hh.2.mono k1 k3⟩⟩
  · intro hv q hq
    have := g3 hv
    unfold Struct.propsFor at this
    rw [List.filter_eq_nil_iff] at this
    have := this q hq
    cases hs : s.propField takes q.1.value with
    | none => simp [hs] at this
    | some _ => rfl

open Demo in
example : ∃ ps, sampleVal.field (fld 'z') = .pairs ps ∧ Each2 (fun (q : Spanned Str Nat × Value Nat) kv => num.keyFromStr q.1.value = .ok kv.1 ∧
    During ⟨[], ()⟩ ⟨[], ()⟩ (decodeValue .normal false num q.2) kv.2) [(⟨0, ['o']⟩, int ['6'])] ps :=
  (c39_rest outer_keeps outer_fields outer_propNames sample_ok).1 _ rfl

/-- For a struct without flattened properties: a property that no field is named
after is an error unless there is a `properties` field. -/
theorem c39_unknown [Externals] {s : Struct E S V} (hk : s.Keeps) (hnf : ∀ p ∈ s.properties, p.flatten = false) (hv : s.varProps = none)
    {node : SpannedNode S} {q : Spanned Str S × Value S} (hq : q ∈ node.value.properties)
    (hu : ∀ p ∈ s.properties, q.1.value ≠ p.name) (c : Ctx E S) : ∀ v c', s.node node c ≠ .ok v c' := by
  intro v c' h
  have hn : s.PropNames (fun p n => decide (n = p.name)) := by
    intro p hp
    rw [if_neg (by simp [hnf p hp])]
    intro n; rfl
  obtain ⟨sp, a, ps, ch, c1, c2, c3, h1, h2, h3, h4, rfl⟩ := Struct.node_parts h
  obtain ⟨-, -, -, g3⟩ := decodeProps_ok hk hn h3
  have := g3 hv
  unfold Struct.propsFor at this
  rw [List.filter_eq_nil_iff] at this
  refine this q hq ?_
  simp only [decide_eq_true_eq]
  rw [Struct.propField, List.findIdx?_eq_none_iff]
  intro p hp
  simpa using hu p hp

open Demo in
example (c) : ∀ v c', inner.node sample c ≠ .ok v c' :=
  c39_unknown inner_keeps (by simp [inner]) rfl (q := (⟨0, ['o']⟩, int ['6'])) (by simp [sample, Node.properties])
    (by simp [inner]) c

/-- A missing property is an error unless the field is optional or has a default. -/
theorem c39_missing [Externals] {s : Struct E S V} (hk : s.Keeps) {takes} (hn : s.PropNames takes) {node : SpannedNode S}
    {p : Prop' E S V} (hp : p ∈ s.properties) (hf : p.flatten = false) (ho : p.option = false) (hdf : p.default = none)
    (hm : ∀ q ∈ node.value.properties, q.1.value ≠ p.name) (c : Ctx E S) : ∀ v c', s.node node c ≠ .ok v c' := by
  intro v c' h
  obtain ⟨sp, as, ps, ch, c1, c2, c3, h1, h2, h3, h4, rfl⟩ := Struct.node_parts h
  obtain ⟨-, g1, -, -⟩ := decodeProps_ok hk hn h3
  obtain ⟨i, hi⟩ := List.mem_iff_getElem?.1 hp
  obtain ⟨x, -, hx⟩ := g1 i p hi
  rw [if_neg (by simp [hf])] at hx
  have : s.propsFor takes node (some i) = [] := by
    unfold Struct.propsFor
    rw [List.filter_eq_nil_iff]
    intro q hq hqi
    simp only [decide_eq_true_eq] at hqi
    obtain ⟨p', hp', ht⟩ := propField_get hqi
    rw [hi] at hp'
    simp only [Option.some.injEq] at hp'
    subst hp'
    have := hn p hp
    rw [if_neg (by simp [hf])] at this
    rw [this] at ht
    exact hm q hq (by simpa using ht)
  rw [this] at hx
  simp [PropGets, absent, ho, hdf] at hx

open Demo in
example (c) : ∀ v c', outer.node (nd 'k' [int ['1']]) c ≠ .ok v c' :=
  c39_missing outer_keeps outer_propNames (p := ⟨fld 'p', ['p'], false, .normal, false, none, num⟩) (by simp [outer])
    rfl rfl rfl (by simp [nd, Node.properties]) c

/-- There are no other reasons for which the properties are refused. -/
theorem c39_refused [Externals] {s : Struct E S V} (hk : s.Keeps) {takes} (hn : s.PropNames takes) {node : SpannedNode S}
    {c : Ctx E S} {r} (h : (decodeProps s node c).stop = some r) :
    (∃ (i : Nat) (p : Prop' E S V), s.properties[i]? = some p ∧ ∃ q ∈ s.propsFor takes node (some i),
      if p.flatten then ∃ x, StopsIn c (p.impls.part.insertProperty x q.1 q.2) r
      else StopsIn c (decodeValue p.decode p.option p.impls q.2) r) ∨
    (∃ vp, s.varProps = some vp ∧ ∃ q ∈ s.propsFor takes node none,
      ((∃ m c', c.errors <+: c'.errors ∧ vp.impls.keyFromStr q.1.value = .error m ∧
          r = some (.conversion q.1.span (.text m), c')) ∨
       StopsIn c (decodeValue vp.decode false vp.impls q.2) r)) ∨
    (∃ c', c.errors <+: c'.errors ∧
      ((s.varProps = none ∧ ∃ q ∈ s.propsFor takes node none, r = some (unexpectedProperty q.1, c')) ∨
       (∃ (i : Nat) (p : Prop' E S V), s.properties[i]? = some p ∧ p.flatten = false ∧ s.propsFor takes node (some i) = [] ∧
          absent p.default p.option = none ∧
          r = some (.missing node.value.nodeName.span ("property `".toList ++ p.name ++ "` is required".toList), c')))) :=
  decodeProps_stop hk hn h

open Demo in
example : (decodeProps inner sample ⟨[], ()⟩).stop = some (some (unexpectedProperty ⟨0, ['o']⟩, ⟨[], ()⟩)) := rfl

/-! ### C40 and C41 -/

/-- Each field for children gets exactly the child nodes that belong to it
(`ChildGets` says what it gets by the kind of the field); the remaining nodes
go, in order, to the `children` field; if there is no such field, each of them is reported. -/
theorem c40_assigned [Externals] {s : Struct E S V} (hk : s.Keeps) (hd : s.allFields.Nodup) {takes} (hn : s.ChildNames takes)
    {node : SpannedNode S} {c c' : Ctx E S} {v : FVal V} (h : s.node node c = .ok v c') :
    (∀ (i : Nat) (ch : Child E S V), s.children[i]? = some ch →
      ChildGets c c' ch (s.nodesFor takes node.value.childNodes (some i)) (v.field ch.field)) ∧
    (∀ vc, s.varChildren = some vc → ∃ xs, v.field vc.field = .list xs ∧
      Each2 (fun n y => During c c' (vc.decoder n) y) (s.nodesFor takes node.value.childNodes none) xs) ∧
    (s.varChildren = none → ∀ n ∈ s.nodesFor takes node.value.childNodes none,
      During c c' (D.emit (unexpectedNode n)) ()) := by
  have h0 := h
  obtain ⟨sp, a, ps, ch, c1, c2, c3, h1, h2, h3, h4, rfl⟩ := Struct.node_parts h
  have hfield := fun {f x} => Struct.node_field (f := f) (x := x) hk hd h0 rfl
  have k1 := (((Keeps.decodeSpecials hk _).ok h1).trans ((Keeps.decodeArgs hk _).ok h2)).trans ((Keeps.decodeProps hk _).ok h3)
  obtain ⟨-, g1, g2, g3⟩ := decodeChildren_ok hk hn h4
  refine ⟨?_, ?_, ?_⟩
  · intro i ch hch
    obtain ⟨x, hx, hg⟩ := g1 i ch hch
    rw [hfield (f := ch.field) (x := x) (by simp [hx])]
    exact ChildGets.mono k1 hg List.prefix_rfl
  · intro vc hvc
    obtain ⟨xs, hx, hg⟩ := g2 vc hvc
    exact ⟨xs, hfield (by simp [hx]), hg.imp fun _ _ hh => hh.mono k1 List.prefix_rfl⟩
  · intro hv n hnn
    exact (g3 hv n hnn).mono k1 List.prefix_rfl

open Demo in
/-- The two nodes `m` go to the field `m`, `other` goes to the field `w`. -/
example : ChildGets ⟨[], ()⟩ ⟨[], ()⟩ ⟨fld 'm', ['m'], false, .multi, none, num.node, num⟩
      [nd 'm', nd 'm' [int ['7']]] (sampleVal.field (fld 'm')) ∧
    outer.nodesFor takesChild sample.value.childNodes none =
      [⟨0, .mk none ⟨0, ['o', 't', 'h', 'e', 'r']⟩ [int ['5']] [] none⟩] :=
  ⟨(c40_assigned outer_keeps outer_fields outer_childNames sample_ok).1 1 _ rfl, rfl⟩

/-- **C40** for the root of a document. -/
theorem c40_root [Externals] {s : Struct E S V} (hk : s.Keeps) (hd : s.allFields.Nodup) {takes} (hn : s.ChildNames takes)
    {nodes : List (SpannedNode S)} {c c' : Ctx E S} {v : FVal V} (h : s.root nodes c = .ok v c') :
    (∀ (i : Nat) (ch : Child E S V), s.children[i]? = some ch →
      ChildGets c c' ch (s.nodesFor takes nodes (some i)) (v.field ch.field)) ∧
    (∀ vc, s.varChildren = some vc → ∃ xs, v.field vc.field = .list xs ∧
      Each2 (fun n y => During c c' (vc.decoder n) y) (s.nodesFor takes nodes none) xs) ∧
    (s.varChildren = none → ∀ n ∈ s.nodesFor takes nodes none, During c c' (D.emit (unexpectedNode n)) ()) := by
  have h0 := h
  obtain ⟨ch, h4, rfl⟩ := Struct.root_parts h
  have hfield := fun {f x} => Struct.root_field (f := f) (x := x) hd h0 rfl
  obtain ⟨-, g1, g2, g3⟩ := decodeChildren_ok hk hn h4
  refine ⟨?_, ?_, g3⟩
  · intro i ch hch
    obtain ⟨x, hx, hg⟩ := g1 i ch hch
    rw [hfield (f := ch.field) (x := x) (by simp [hx])]
    exact hg
  · intro vc hvc
    obtain ⟨xs, hx, hg⟩ := g2 vc hvc
    exact ⟨xs, hfield (by simp [hx]), hg⟩

open Demo in
example : ∃ v, inner.root [nd 'x', nd 'y'] ⟨[], ()⟩ = .ok v ⟨[], ()⟩ ∧ inner.allFields.Nodup := ⟨_, rfl, by decide⟩

/-- The nodes that belong to a field that is not flattened and is the first with
its name are the nodes with that name. -/
theorem c40_by_name [Externals] {s : Struct E S V} {takes} (hn : s.ChildNames takes) {i : Nat} {ch : Child E S V}
    (hch : s.children[i]? = some ch) (hf : ch.mode ≠ .flatten) (hfirst : s.childField takes ch.name = some i)
    (nodes : List (SpannedNode S)) :
    s.nodesFor takes nodes (some i) = nodes.filter fun n => n.value.nodeName.value = ch.name := by
  unfold Struct.nodesFor
  congr 1
  funext n
  rw [decide_eq_decide]
  constructor
  · intro hq
    obtain ⟨p', hp', ht⟩ := childField_get hq
    rw [hch] at hp'
    simp only [Option.some.injEq] at hp'
    subst hp'
    have := hn ch (List.mem_of_getElem? hch)
    rw [if_neg hf] at this
    rw [this] at ht
    simpa using ht
  · intro hq; rw [hq]; exact hfirst

open Demo in
example (nodes) : outer.nodesFor takesChild nodes (some 1) = nodes.filter fun n => n.value.nodeName.value = ['m'] :=
  c40_by_name outer_childNames (i := 1) rfl (by simp) (by decide) nodes

/-- For structs without flattened fields whose child fields have different names. -/
theorem c40_plain [Externals] {s : Struct E S V} (hnf : ∀ ch ∈ s.children, ch.mode ≠ .flatten) (hnd : (s.children.map (·.name)).Nodup)
    (nodes : List (SpannedNode S)) :
    s.ChildNames (fun ch n => decide (n = ch.name)) ∧
    (∀ (i : Nat) (ch : Child E S V), s.children[i]? = some ch →
      s.nodesFor (fun ch n => decide (n = ch.name)) nodes (some i) = nodes.filter fun n => n.value.nodeName.value = ch.name) ∧
    s.nodesFor (fun ch n => decide (n = ch.name)) nodes none =
      nodes.filter fun n => n.value.nodeName.value ∉ s.children.map (·.name) := by
  have hn : s.ChildNames (fun ch n => decide (n = ch.name)) := by
    intro ch hch
    rw [if_neg (hnf ch hch)]
    intro n; rfl
  refine ⟨hn, ?_, ?_⟩
  · intro i ch hch
    refine c40_by_name hn hch (hnf ch (List.mem_of_getElem? hch)) ?_ nodes
    unfold Struct.childField
    rw [List.findIdx?_eq_some_iff_getElem]
    obtain ⟨hi, hget⟩ := List.getElem?_eq_some_iff.1 hch
    refine ⟨hi, by simp [hget], ?_⟩
    intro j hj hj'
    simp only [decide_eq_true_eq] at hj'
    have := (List.getElem_inj (xs := s.children.map (·.name)) (i := j) (j := i) (h₀ := by simp; omega)
      (h₁ := by simpa using hi) hnd).1 (by simp [hget, hj'])
    omega
  · unfold Struct.nodesFor
    congr 1
    funext n
    rw [decide_eq_decide, Struct.childField, List.findIdx?_eq_none_iff]
    simp only [decide_eq_false_iff_not, List.mem_map, not_exists, not_and]
    exact ⟨fun h ch hch e => h ch hch e.symm, fun h ch hch e => h ch hch e.symm⟩

open Demo in
example : (∀ ch ∈ inner.children, ch.mode ≠ .flatten) ∧ (inner.children.map (·.name)).Nodup := by simp [inner]

/-- A second node for a single-child field is an error. -/
theorem c40_duplicate [Externals] {s : Struct E S V} (hk : s.Keeps) {takes} (hn : s.ChildNames takes) {i : Nat} {ch : Child E S V}
    (hch : s.children[i]? = some ch) (hm : ch.mode = .normal) {sp : Option S} {nodes : List (SpannedNode S)}
    (h2 : 2 ≤ (s.nodesFor takes nodes (some i)).length) (c : Ctx E S) :
    ∀ env c', decodeChildren s sp nodes c ≠ .ok env c' := by
  intro env c' h
  obtain ⟨-, g1, -, -⟩ := decodeChildren_ok hk hn h
  obtain ⟨x, -, hg⟩ := g1 i ch hch
  unfold ChildGets at hg
  rw [hm] at hg
  dsimp only at hg
  match hl : s.nodesFor takes nodes (some i) with
  | [] => simp [hl] at h2
  | [_] => simp [hl] at h2
  | _ :: _ :: _ => rw [hl] at hg; exact hg

open Demo in
example (c) : ∀ env c', decodeChildren outer none [nd 'c', nd 'm', nd 'c'] c ≠ .ok env c' :=
  c40_duplicate outer_keeps outer_childNames (i := 0) rfl rfl (by decide) c

/-- A missing child is an error unless the field is optional or has a default. -/
theorem c40_missing [Externals] {s : Struct E S V} (hk : s.Keeps) {takes} (hn : s.ChildNames takes) {i : Nat} {ch : Child E S V}
    (hch : s.children[i]? = some ch) (hm : ch.mode = .normal) (ho : ch.option = false) (hdf : ch.default = none)
    {sp : Option S} {nodes : List (SpannedNode S)} (h0 : s.nodesFor takes nodes (some i) = []) (c : Ctx E S) :
    ∀ env c', decodeChildren s sp nodes c ≠ .ok env c' := by
  intro env c' h
  obtain ⟨-, g1, -, -⟩ := decodeChildren_ok hk hn h
  obtain ⟨x, -, hg⟩ := g1 i ch hch
  unfold ChildGets at hg
  rw [hm, h0] at hg
  simp [absent, ho, hdf] at hg

open Demo in
example (c) : ∀ env c', decodeChildren outer none [nd 'm'] c ≠ .ok env c' :=
  c40_missing outer_keeps outer_childNames (i := 0) rfl rfl rfl rfl (by rfl) c

/-- When the children are refused, so are the node and the document. -/
theorem c40_children_refused [Externals] {s : Struct E S V} :
    (∀ node : SpannedNode S, (∀ c env c', decodeChildren s (some node.span) node.value.childNodes c ≠ .ok env c') →
      ∀ c v c', s.node node c ≠ .ok v c') ∧
    (∀ nodes : List (SpannedNode S), (∀ c env c', decodeChildren s none nodes c ≠ .ok env c') →
      ∀ c v c', s.root nodes c ≠ .ok v c') := by
  constructor
  · intro node h c v c' hv
    obtain ⟨_, _, _, _, _, _, _, _, _, _, h4, _⟩ := Struct.node_parts hv
    exact h _ _ _ h4
  · intro nodes h c v c' hv
    obtain ⟨_, h4, _⟩ := Struct.root_parts hv
    exact h _ _ _ h4

open Demo in
example (c) : ∀ v c', outer.root [nd 'm'] c ≠ .ok v c' :=
  c40_children_refused.2 _ (fun c => c40_missing outer_keeps outer_childNames (i := 0) rfl rfl rfl rfl (by rfl) c) c

/-- A node that belongs to no field is an error unless there is a `children`
field: no result without a new error. -/
theorem c40_unmatched [Externals] {s : Struct E S V} (hk : s.Keeps) {takes} (hn : s.ChildNames takes) (hv : s.varChildren = none)
    {sp : Option S} {nodes : List (SpannedNode S)} (h0 : s.nodesFor takes nodes none ≠ []) (c : Ctx E S) :
    ¬ (decodeChildren s sp nodes c).Clean c := by
  rintro ⟨env, c', h, hc⟩
  obtain ⟨-, -, -, g3⟩ := decodeChildren_ok hk hn h
  obtain ⟨n, l, hl⟩ := List.exists_cons_of_ne_nil h0
  obtain ⟨c1, c2, e1, h1, e2⟩ := (g3 hv n (by simp [hl])).clean hc (Keeps.emit _)
  rw [D.emit_ok_iff] at h1
  rw [← h1] at e2
  simp [e1] at e2

open Demo in
example (c) : ¬ (decodeChildren inner none [nd 'x', nd 'k'] c).Clean c :=
  c40_unmatched inner_keeps inner_childNames rfl (by simp; decide) c

/-- There are no other reasons for which the children are refused. -/
theorem c40_refused [Externals] {s : Struct E S V} (hk : s.Keeps) {takes} (hn : s.ChildNames takes) {sp : Option S}
    {nodes : List (SpannedNode S)} {c : Ctx E S} {r} (h : (decodeChildren s sp nodes c).stop = some r) :
    (∃ (i : Nat) (ch : Child E S V), s.children[i]? = some ch ∧ ∃ n ∈ s.nodesFor takes nodes (some i),
      if ch.mode = .flatten then ∃ x, StopsIn c (ch.impls.part.insertChild x n) r
      else ch.mode ≠ .bool ∧ StopsIn c (ch.decoder n) r) ∨
    (∃ vc, s.varChildren = some vc ∧ ∃ n ∈ s.nodesFor takes nodes none, StopsIn c (vc.decoder n) r) ∨
    (∃ c', c.errors <+: c'.errors ∧ ∃ (i : Nat) (ch : Child E S V), s.children[i]? = some ch ∧ ch.mode = .normal ∧
      ((∃ n ∈ (s.nodesFor takes nodes (some i)).tail, r = some (duplicateNode ch n, c')) ∨
       (s.nodesFor takes nodes (some i) = [] ∧ absent ch.default ch.option = none ∧ r = some (missingChild sp ch, c')))) :=
  decodeChildren_stop hk hn h

open Demo in
example : (decodeChildren outer none [nd 'm'] ⟨[], ()⟩).stop =
    some (some (.missingNode "child node `c` is required".toList, ⟨[], ()⟩)) := rfl

/-- A flag is true exactly if a node with its name is there; and if nothing is
reported, there is at most one such node and it has no arguments, no properties
and no child nodes. -/
theorem c41_flag [Externals] {s : Struct E S V} (hk : s.Keeps) (hd : s.allFields.Nodup) {takes} (hn : s.ChildNames takes)
    {node : SpannedNode S} {c c' : Ctx E S} {v : FVal V} (h : s.node node c = .ok v c') {i : Nat} {ch : Child E S V}
    (hch : s.children[i]? = some ch) (hm : ch.mode = .bool) (hfirst : s.childField takes ch.name = some i) :
    v.field ch.field = .bool (node.value.childNodes.any fun n => n.value.nodeName.value = ch.name) ∧
    (c'.errors = c.errors →
      (node.value.childNodes.filter fun n => n.value.nodeName.value = ch.name).length ≤ 1 ∧
      ∀ n ∈ node.value.childNodes, n.value.nodeName.value = ch.name →
        n.value.arguments = [] ∧ n.value.properties = [] ∧ n.value.childNodes = []) := by
  have hg := (c40_assigned hk hd hn h).1 i ch hch
  rw [c40_by_name hn hch (by simp [hm]) hfirst] at hg
  exact flag_field hm hg

open Demo in
example : sampleVal.field (fld 'v') = .bool true :=
  (c41_flag outer_keeps outer_fields outer_childNames sample_ok (i := 2) rfl rfl (by decide)).1

/-- **C41** for the root of a document. -/
theorem c41_root [Externals] {s : Struct E S V} (hk : s.Keeps) (hd : s.allFields.Nodup) {takes} (hn : s.ChildNames takes)
    {nodes : List (SpannedNode S)} {c c' : Ctx E S} {v : FVal V} (h : s.root nodes c = .ok v c') {i : Nat} {ch : Child E S V}
    (hch : s.children[i]? = some ch) (hm : ch.mode = .bool) (hfirst : s.childField takes ch.name = some i) :
    v.field ch.field = .bool (nodes.any fun n => n.value.nodeName.value = ch.name) ∧
    (c'.errors = c.errors →
      (nodes.filter fun n => n.value.nodeName.value = ch.name).length ≤ 1 ∧
      ∀ n ∈ nodes, n.value.nodeName.value = ch.name →
        n.value.arguments = [] ∧ n.value.properties = [] ∧ n.value.childNodes = []) := by
  have hg := (c40_root hk hd hn h).1 i ch hch
  rw [c40_by_name hn hch (by simp [hm]) hfirst] at hg
  exact flag_field hm hg

open Demo in
example {v} (h : inner.root [nd 'x'] ⟨[], ()⟩ = .ok v ⟨[], ()⟩) : v.field (fld 'y') = .bool false :=
  (c41_root inner_keeps (by decide) inner_childNames h (i := 1) rfl rfl (by decide)).1

/-! ### C51 -/

/-- The fields for the span, the name and the type name of the node get them; a
type name that no field takes is reported; fields without attributes get their `Default`. -/
theorem c51_specials [Externals] {s : Struct E S V} (hk : s.Keeps) (hd : s.allFields.Nodup)
    {node : SpannedNode S} {c c' : Ctx E S} {v : FVal V} (h : s.node node c = .ok v c') :
    (∀ f ∈ s.spans, During c c' (f.impls.span.run node.span) (v.field f.field)) ∧
    (∀ f ∈ s.nodeNames, f.impls.fromStr node.value.nodeName.value = .ok (v.field f.field)) ∧
    (∀ f ∈ s.typeNames, TypeNameGets node f (v.field f.field)) ∧
    (∀ f ∈ s.extraFields, v.field f.field = f.impls.default) ∧
    (s.typeNames = [] → ∀ tn, node.value.typeName = some tn → During c c' (D.emit (strayTypeName tn)) ()) := by
  have h0 := h
  obtain ⟨sp, a, ps, ch, c1, c2, c3, h1, h2, h3, h4, rfl⟩ := Struct.node_parts h
  have hfield := fun {f x} => Struct.node_field (f := f) (x := x) hk hd h0 rfl
  have k1 := (((Keeps.decodeArgs hk _).ok h2).trans ((Keeps.decodeProps hk _).ok h3)).trans ((Keeps.decodeChildren hk _ _).ok h4)
  obtain ⟨-, g1, g2, g3, g4⟩ := decodeSpecials_ok hk h1
  refine ⟨?_, ?_, ?_, ?_, ?_⟩
  · intro f hf
    obtain ⟨x, hx, hg⟩ := g1 f hf
    rw [hfield (f := f.field) (x := x) (by simp [hx])]
    exact hg.mono List.prefix_rfl k1
  · intro f hf
    obtain ⟨x, hx, hg⟩ := g2 f hf
    rw [hfield (f := f.field) (x := x) (by simp [hx])]
    exact hg
  · intro f hf
    obtain ⟨x, hx, hg⟩ := g3 f hf
    rw [hfield (f := f.field) (x := x) (by simp [hx])]
    exact hg
  · intro f hf
    exact hfield (f := f.field) (x := f.impls.default) (by
      simp only [List.mem_append, assignExtra, List.mem_map]
      exact .inr ⟨f, hf, rfl⟩)
  · intro hs tn htn
    exact (g4 hs tn htn).mono List.prefix_rfl k1

open Demo in
example : During ⟨[], ()⟩ ⟨[], ()⟩ (num.span.run 77) (sampleVal.field (fld 's')) :=
  (c51_specials outer_keeps outer_fields sample_ok).1 ⟨fld 's', num⟩ (by simp [outer])

/-- The struct has exactly its fields, each once. -/
theorem c51_fields [Externals] {s : Struct E S V} (hk : s.Keeps) {node : SpannedNode S} {c c' : Ctx E S} {v : FVal V}
    (h : s.node node c = .ok v c') : ∃ env, v = .record env ∧ env.map (·.1) = s.allFields :=
  Struct.node_keys hk h

open Demo in
example : ∃ env, sampleVal = .record env ∧ env.map (·.1) = outer.allFields := c51_fields outer_keeps sample_ok

end Knuffel
