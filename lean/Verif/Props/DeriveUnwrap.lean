import Verif.Props.DeriveEnum
import Verif.Props.DeriveErrors
/-!
# `unwrap`

C45: a child field with `unwrap(..)` gets what is decoded from inside the child node.

`unwrapFn field inner` is the decoder made for `unwrap(inner)` at a field whose
local variable is `field`; the theorems say what it does with a node `n`.
-/

set_option linter.unusedSectionVars false

namespace Knuffel
variable {E S V α : Type}

/-! ### Helper lemmas -/

theorem decodeArgs_nothing [Externals] {s : Struct E S V} (h1 : s.arguments = []) (h2 : s.varArgs = none) {n : SpannedNode S}
    (hn : n.value.arguments = []) : decodeArgs s n = pure [] := by
  unfold decodeArgs
  rw [h1, hn, h2]
  rfl

theorem decodeProps_nothing [Externals] {s : Struct E S V} (h1 : s.properties = []) (h2 : s.varProps = none) {n : SpannedNode S}
    (hn : n.value.properties = []) : decodeProps s n = pure [] := by
  unfold decodeProps
  rw [h1, hn, h2]
  rfl

theorem decodeChildren_nothing [Externals] {s : Struct E S V} (h1 : s.children = []) (h2 : s.varChildren = none) (sp : Option S) :
    decodeChildren s sp [] = pure [] := by
  unfold decodeChildren
  rw [h1, h2]
  rfl

theorem neverClean_args [Externals] {s : Struct E S V} (h1 : s.arguments = []) (h2 : s.varArgs = none) {n : SpannedNode S}
    (hn : n.value.arguments ≠ []) : NeverClean (decodeContent s n) := by
  rintro c ⟨x, c', h, -⟩
  unfold decodeContent at h
  rw [D.bind_ok_iff] at h
  obtain ⟨_, _, h, -⟩ := h
  unfold decodeArgs at h
  rw [h1, h2] at h
  cases ha : n.value.arguments with
  | nil => exact hn ha
  | cons v vs =>
    rw [ha] at h
    cases h

theorem neverClean_props [Externals] {s : Struct E S V} (h1 : s.properties = []) (h2 : s.varProps = none) {n : SpannedNode S}
    (hn : n.value.properties ≠ []) : NeverClean (decodeContent s n) := by
  rintro c ⟨x, c', h, -⟩
  unfold decodeContent at h
  rw [D.bind_ok_iff] at h
  obtain ⟨_, c1, -, h⟩ := h
  rw [D.bind_ok_iff] at h
  obtain ⟨_, _, h, -⟩ := h
  unfold decodeProps at h
  rw [h1] at h
  cases ha : n.value.properties with
  | nil => exact hn ha
  | cons v vs =>
    rw [ha] at h
    unfold propLoop at h
    rw [h1, h2] at h
    cases h

theorem childLoop_unexpected [Externals] {s : Struct E S V} (h1 : s.children = []) (h2 : s.varChildren = none)
    (l : List (SpannedNode S)) (c : Ctx E S) : childLoop s l [] [] c = .ok ([], []) (c.emitAll (l.map unexpectedNode)) := by
  induction l generalizing c with
  | nil => rw [List.map_nil, Ctx.emitAll_nil]; rfl
  | cons n l ih =>
    unfold childLoop
    rw [h1, h2]
    show childLoop s l [] [] (c.emitAll [unexpectedNode n]) = _
    rw [ih, Ctx.emitAll_emitAll]
    rfl

theorem neverClean_children [Externals] {s : Struct E S V} (hk : s.Keeps) (h1 : s.children = []) (h2 : s.varChildren = none)
    {n : SpannedNode S} (hn : n.value.childNodes ≠ []) : NeverClean (decodeContent s n) := by
  rintro c ⟨x, c', h, he⟩
  unfold decodeContent at h
  rw [D.bind_ok_iff] at h
  obtain ⟨_, c1, ha, h⟩ := h
  rw [D.bind_ok_iff] at h
  obtain ⟨_, c2, hp, h⟩ := h
  rw [D.bind_ok_iff] at h
  obtain ⟨_, c3, h, hx⟩ := h
  rw [D.pure_ok_iff] at hx
  obtain ⟨-, rfl⟩ := hx
  have k := ((Keeps.decodeArgs hk _).ok ha).trans ((Keeps.decodeProps hk _).ok hp)
  unfold decodeChildren at h
  rw [h1, List.map_nil, D.bind_ok (childLoop_unexpected h1 h2 _ _)] at h
  dsimp only at h
  rw [List.zip_nil_left, finishChildren] at h
  have h : c2.emitAll (n.value.childNodes.map unexpectedNode) = c3 := by
    rw [h2] at h
    cases h; rfl
  subst h
  have := k.length_le
  have hl := congrArg List.length he
  rw [Ctx.emitAll_errors, List.length_append, List.length_map] at hl
  have : 0 < n.value.childNodes.length := List.length_pos_iff.2 hn
  omega

theorem NeverClean.unwrap [Externals] {s : Struct E S V} {f : AttrAccess} {n : SpannedNode S} (h : NeverClean (decodeContent s n)) :
    NeverClean (unwrapNode s f n) := by
  rintro c ⟨x, c', hx, he⟩
  unfold unwrapNode at hx
  rw [D.bind_ok_iff] at hx
  obtain ⟨y, c1, hy, hx⟩ := hx
  rw [D.pure_ok_iff] at hx
  obtain ⟨-, rfl⟩ := hx
  exact h c ⟨y, _, hy, he⟩

theorem addFieldWith_content [Externals] {field : AttrAccess} {o b : Bool} {a : PlainAttrs E S V} {u : Bool} {dec} {s : Struct E S V}
    (h : addFieldWith {} field o b a u dec = .ok s)
    (hm : a.mode ≠ none ∧ a.mode ≠ some .span ∧ a.mode ≠ some .nodeName ∧ a.mode ≠ some .typeName) :
    s.spans = [] ∧ s.nodeNames = [] ∧ s.typeNames = [] ∧ s.extraFields = [] := by
  unfold addFieldWith at h
  dsimp only at h
  cases hmode : a.mode with
  | none => exact absurd hmode hm.1
  | some m =>
    rw [hmode] at h hm
    cases m with
    | argument => cases h; simp
    | arguments => cases h; simp
    | property name =>
      simp only [errPair] at h
      cases name <;> cases field <;> cases h <;> simp
    | properties => cases h; simp
    | child =>
      simp only [errPair] at h
      cases hd : a.noDecode <;> rw [hd] at h <;> cases field <;> cases dec <;> cases h <;> simp
    | children name =>
      cases name <;> simp only [errPair] at h <;>
      cases hd : a.noDecode <;> rw [hd] at h <;> cases dec <;> cases h
      all_goals simp
    | flatten c p =>
      simp only [errPair] at h
      cases hd : a.noDecode <;> rw [hd] at h <;> cases o <;> cases c <;> cases p <;> cases h
      all_goals simp
    | span => exact absurd rfl hm.2.1
    | nodeName => exact absurd rfl hm.2.2.1
    | typeName => exact absurd rfl hm.2.2.2

theorem unwrapFn_ok [Externals] {field : AttrAccess} {inner : FieldAttrs E S V} {d} (h : unwrapFn field inner = .ok d) :
    ∃ s, addField {} field false false inner = .ok s ∧ d = unwrapNode s field ∧
      s.spans = [] ∧ s.nodeNames = [] ∧ s.typeNames = [] ∧ s.extraFields = [] := by
  have key : ∀ (a : PlainAttrs E S V) (u : Bool) (dec : Except Str (NodeDecoder E S (FVal V))),
      (match a.mode with
        | none | some .span | some .nodeName | some .typeName => Except.error "cannot find value".toList
        | some _ => do
          let s ← addFieldWith {} field false false a u dec
          pure (unwrapNode s field)) = Except.ok d →
      ∃ s, addFieldWith {} field false false a u dec = .ok s ∧ d = unwrapNode s field ∧
        s.spans = [] ∧ s.nodeNames = [] ∧ s.typeNames = [] ∧ s.extraFields = [] := by
    intro a u dec h
    have hm : a.mode ≠ none ∧ a.mode ≠ some .span ∧ a.mode ≠ some .nodeName ∧ a.mode ≠ some .typeName := by
      refine ⟨?_, ?_, ?_, ?_⟩ <;> intro hm <;> rw [hm] at h <;> cases h
    cases hs : addFieldWith {} field false false a u dec with
    | error e =>
      rw [hs] at h
      split at h <;> cases h
    | ok s =>
      rw [hs] at h
      refine ⟨s, rfl, ?_, addFieldWith_content hs hm⟩
      split at h
      · cases h
      · cases h
      · cases h
      · cases h
      · cases h; rfl
  cases inner with
  | plain a =>
    rw [unwrapFn] at h
    rw [addField]
    exact key a _ _ h
  | unwrapped a i =>
    rw [unwrapFn] at h
    rw [addField]
    exact key a _ _ h

/-! ### C45 -/

/-- The decoder decodes the content of the node as a struct with one field with
the inner attributes, and gives that field.  (A type annotation of the node is
ignored.)  So what C38 to C41 say of structs applies to unwrapped nodes. -/
theorem c45_as_struct [Externals] {field : AttrAccess} {inner : FieldAttrs E S V} {d} (h : unwrapFn field inner = .ok d) :
    ∃ s, Struct.new [⟨field, false, false, inner⟩] = .ok s ∧
      ∀ n, d n = (do let v ← s.node (dropType n); pure (v.field field)) := by
  obtain ⟨s, hs, rfl, h1, h2, h3, h4⟩ := unwrapFn_ok h
  refine ⟨s, ?_, ?_⟩
  · unfold Struct.new
    rw [List.foldlM_cons, hs]
    rfl
  · intro n
    rw [Struct.node_dropType h1 h2 h3]
    unfold unwrapNode assignExtra
    rw [h4, bind_assoc]
    simp only [List.map_nil, List.append_nil, pure_bind]
    rfl

open Demo in
example : ∃ d, unwrapFn (.named ['k']) (.plain (attrs (some .argument))) = .ok d := ⟨_, rfl⟩

/-- How the child nodes inside the unwrapped node are decoded: by the type of the
field, or by a further `unwrap`. -/
def FieldAttrs.inside [Externals] (fn : Str) : FieldAttrs E S V → Except Str (NodeDecoder E S (FVal V))
  | .plain a => .ok a.impls.node
  | .unwrapped _ i => unwrapFn (.named fn) i

theorem addField_base [Externals] (b : Struct E S V) (fn : Str) (o bl : Bool) (i : FieldAttrs E S V) :
    addField b (.named fn) o bl i = addFieldWith b (.named fn) o bl i.base i.hasUnwrap (i.inside fn) := by
  cases i <;> rfl

theorem Env.get_self (f : AttrAccess) (x : FVal V) (l : Env V) : Env.get ((f, x) :: l) f = x := by
  simp [Env.get, FVal.field]

/-- A struct with only one field for arguments. -/
theorem keeps_arg {x : Arg E S V} (h : x.impls.Keeps) : Struct.Keeps { arguments := [x] } where
  spans := by simp
  nodeNames := by simp
  typeNames := by simp
  arguments := by simpa using h
  varArgs := by simp
  properties := by simp
  varProps := by simp
  children := by simp
  varChildren := by simp
theorem keeps_varArgs {x : VarArgs E S V} (h : x.impls.Keeps) : Struct.Keeps { varArgs := some x } where
  spans := by simp
  nodeNames := by simp
  typeNames := by simp
  arguments := by simp
  varArgs := by simpa using h
  properties := by simp
  varProps := by simp
  children := by simp
  varChildren := by simp
theorem keeps_prop {x : Prop' E S V} (h : x.impls.Keeps) : Struct.Keeps { properties := [x] } where
  spans := by simp
  nodeNames := by simp
  typeNames := by simp
  arguments := by simp
  varArgs := by simp
  properties := by simpa using h
  varProps := by simp
  children := by simp
  varChildren := by simp
theorem keeps_varProps {x : VarProps E S V} (h : x.impls.Keeps) : Struct.Keeps { varProps := some x } where
  spans := by simp
  nodeNames := by simp
  typeNames := by simp
  arguments := by simp
  varArgs := by simp
  properties := by simp
  varProps := by simpa using h
  children := by simp
  varChildren := by simp
theorem keeps_child {x : Child E S V} (h : x.impls.Keeps) (hd : ∀ n, Keeps (x.decoder n)) : Struct.Keeps { children := [x] } where
  spans := by simp
  nodeNames := by simp
  typeNames := by simp
  arguments := by simp
  varArgs := by simp
  properties := by simp
  varProps := by simp
  children := by simpa using ⟨h, hd⟩
  varChildren := by simp
theorem keeps_varChildren {x : VarChildren E S V} (hd : ∀ n, Keeps (x.decoder n)) : Struct.Keeps { varChildren := some x } where
  spans := by simp
  nodeNames := by simp
  typeNames := by simp
  arguments := by simp
  varArgs := by simp
  properties := by simp
  varProps := by simp
  children := by simp
  varChildren := by simpa using hd

/-- `unwrap(argument)`: the value of the only argument.  Without argument, the
default if there is one, and else an error.  More arguments, properties and
children are errors. -/
theorem c45_argument [Externals] {fn : Str} {i : FieldAttrs E S V} {d} (hm : i.base.mode = some .argument)
    (h : unwrapFn (.named fn) i = .ok d) (n : SpannedNode S) :
    (n.value.properties = [] → n.value.childNodes = [] →
      (∀ arg, n.value.arguments = [arg] → d n = decodeValue (i.base.decode.getD .normal) false i.base.impls arg) ∧
      (n.value.arguments = [] → ∀ v, i.base.defaultVal = some v → d n = pure v)) ∧
    (n.value.arguments = [] → i.base.defaultVal = none → ∀ c,
      d n c = .err (.missing n.value.nodeName.span ("additional argument `".toList ++ fn ++ "` is required".toList)) c) ∧
    (i.base.impls.Keeps → 1 < n.value.arguments.length ∨ n.value.properties ≠ [] ∨ n.value.childNodes ≠ [] →
      NeverClean (d n)) := by
  obtain ⟨s, hs, rfl, -⟩ := unwrapFn_ok h
  rw [addField_base, addFieldWith] at hs
  simp only [hm] at hs
  obtain rfl : { arguments := [⟨.named fn, false, i.base.decode.getD .normal, i.base.defaultVal, i.base.impls⟩] } = s := by
    cases hs; rfl
  refine ⟨?_, ?_, ?_⟩
  · intro hp hc
    constructor
    · intro arg ha
      unfold unwrapNode decodeContent
      rw [decodeProps_nothing rfl rfl hp, hc, decodeChildren_nothing rfl rfl]
      simp only [decodeArgs, ha, decodeArgList, decodeArg, bind_assoc, pure_bind, List.cons_append,
        Env.get_self, bind_pure]
    · intro ha v hv
      unfold unwrapNode decodeContent
      rw [decodeProps_nothing rfl rfl hp, hc, decodeChildren_nothing rfl rfl]
      simp only [decodeArgs, ha, decodeArgList, decodeArg, hv, pure_bind, List.cons_append,
        Env.get_self]
  · intro ha hv c
    unfold unwrapNode decodeContent
    simp only [decodeArgs, ha, decodeArgList, decodeArg, hv, bind_assoc]
    rfl
  · intro hk hbad
    apply NeverClean.unwrap
    rcases hbad with hbad | hbad | hbad
    · rintro c ⟨x, c', hx, -⟩
      unfold decodeContent at hx
      rw [D.bind_ok_iff] at hx
      obtain ⟨_, _, hx, -⟩ := hx
      obtain ⟨-, -, -, g⟩ := decodeArgs_ok (keeps_arg hk) hx
      have := g rfl
      simp at this
      omega
    · exact neverClean_props rfl rfl hbad
    · exact neverClean_children (keeps_arg hk) rfl rfl hbad

open Demo in
/-- `k 5` gives 5; `k 5 6` is not accepted. -/
example {d} (h : unwrapFn (.named ['k']) (.plain (attrs (some .argument))) = .ok d) :
    d (nd 'k' [int ['5']]) = decodeValue .normal false num (int ['5']) ∧ NeverClean (d (nd 'k' [int ['5'], int ['6']])) :=
  ⟨((c45_argument rfl h (nd 'k' [int ['5']])).1 rfl rfl).1 _ rfl,
   (c45_argument rfl h (nd 'k' [int ['5'], int ['6']])).2.2 num_keeps (.inl (by simp [nd, Node.arguments]))⟩

/-- `unwrap(arguments)`: the values of all arguments.  Properties and children are errors. -/
theorem c45_arguments [Externals] {fn : Str} {i : FieldAttrs E S V} {d} (hm : i.base.mode = some .arguments)
    (h : unwrapFn (.named fn) i = .ok d) (n : SpannedNode S) :
    (n.value.properties = [] → n.value.childNodes = [] →
      d n = (do
        let xs ← D.collect (decodeValue (i.base.decode.getD .normal) false i.base.impls) n.value.arguments
        pure (.list xs))) ∧
    (i.base.impls.Keeps → n.value.properties ≠ [] ∨ n.value.childNodes ≠ [] → NeverClean (d n)) := by
  obtain ⟨s, hs, rfl, -⟩ := unwrapFn_ok h
  rw [addField_base, addFieldWith] at hs
  simp only [hm] at hs
  obtain rfl : { varArgs := some ⟨.named fn, i.base.decode.getD .normal, i.base.impls⟩ } = s := by
    cases hs; rfl
  refine ⟨?_, ?_⟩
  · intro hp hc
    unfold unwrapNode decodeContent
    rw [decodeProps_nothing rfl rfl hp, hc, decodeChildren_nothing rfl rfl]
    simp only [decodeArgs, decodeArgList, bind_assoc, pure_bind, List.cons_append, List.nil_append, Env.get_self]
  · intro hk hbad
    apply NeverClean.unwrap
    rcases hbad with hbad | hbad
    · exact neverClean_props rfl rfl hbad
    · exact neverClean_children (keeps_varArgs hk) rfl rfl hbad

open Demo in
example {d} (h : unwrapFn (.named ['k']) (.plain (attrs (some .arguments))) = .ok d) :
    d (nd 'k' [int ['5'], int ['6']]) =
      (do let xs ← D.collect (decodeValue .normal false num) [int ['5'], int ['6']]; pure (.list xs)) :=
  (c45_arguments rfl h (nd 'k' [int ['5'], int ['6']])).1 rfl rfl

/-- `unwrap(property)`: the value of the only property, which has the name given
or else that of the field.  Without property, the default if there is one, and
else an error.  Arguments, other properties and children are errors. -/
theorem c45_property [Externals] {fn : Str} {i : FieldAttrs E S V} {d} {name : Option Str} (hm : i.base.mode = some (.property name))
    (h : unwrapFn (.named fn) i = .ok d) (n : SpannedNode S) :
    (n.value.arguments = [] → n.value.childNodes = [] →
      (∀ key v, n.value.properties = [(key, v)] → key.value = name.getD (Externals.kebab fn) →
        d n = decodeValue (i.base.decode.getD .normal) false i.base.impls v) ∧
      (n.value.properties = [] → ∀ v, i.base.defaultVal = some v → d n = pure v)) ∧
    (n.value.arguments = [] → n.value.properties = [] → i.base.defaultVal = none → ∀ c,
      d n c = .err (.missing n.value.nodeName.span
        ("property `".toList ++ name.getD (Externals.kebab fn) ++ "` is required".toList)) c) ∧
    (i.base.impls.Keeps →
      n.value.arguments ≠ [] ∨ (∃ q ∈ n.value.properties, q.1.value ≠ name.getD (Externals.kebab fn)) ∨ n.value.childNodes ≠ [] →
      NeverClean (d n)) := by
  obtain ⟨s, hs, rfl, -⟩ := unwrapFn_ok h
  rw [addField_base, addFieldWith] at hs
  simp only [hm] at hs
  obtain rfl : { properties := [⟨.named fn, name.getD (Externals.kebab fn), false, i.base.decode.getD .normal, false,
      i.base.defaultVal, i.base.impls⟩] } = s := by
    cases name <;> (cases hs; rfl)
  refine ⟨?_, ?_, ?_⟩
  · intro ha hc
    constructor
    · intro key v hp hkey
      unfold unwrapNode decodeContent
      rw [decodeArgs_nothing rfl rfl ha, hc, decodeChildren_nothing rfl rfl]
      simp only [decodeProps, hp, propLoop, List.map_cons, List.map_nil, Prop'.init, List.zip_cons_cons, List.zip_nil_left,
        propArms, hkey, bind_assoc, pure_bind, finishProps, Prop'.finish, Bool.false_eq_true, if_false, if_true]
      cases i.base.defaultVal <;>
        simp only [List.nil_append, List.cons_append, Env.get_self, bind_pure]
    · intro hp v hv
      unfold unwrapNode decodeContent
      rw [decodeArgs_nothing rfl rfl ha, hc, decodeChildren_nothing rfl rfl]
      simp only [decodeProps, hp, propLoop, List.map_cons, List.map_nil, Prop'.init, List.zip_cons_cons, List.zip_nil_left,
        finishProps, Prop'.finish, hv, pure_bind, Bool.false_eq_true, if_false, List.nil_append,
        List.cons_append, Env.get_self]
  · intro ha hp hv c
    unfold unwrapNode decodeContent
    rw [decodeArgs_nothing rfl rfl ha]
    simp only [decodeProps, hp, propLoop, List.map_cons, List.map_nil, Prop'.init, List.zip_cons_cons, List.zip_nil_left,
        finishProps, Prop'.finish, hv, bind_assoc, pure_bind]
    rfl
  · intro hk hbad
    apply NeverClean.unwrap
    rcases hbad with hbad | ⟨q, hq, hbad⟩ | hbad
    · exact neverClean_args rfl rfl hbad
    · rintro c ⟨x, c', hx, -⟩
      unfold decodeContent at hx
      rw [D.bind_ok_iff] at hx
      obtain ⟨_, _, -, hx⟩ := hx
      rw [D.bind_ok_iff] at hx
      obtain ⟨_, _, hx, -⟩ := hx
      obtain ⟨-, -, -, g⟩ := decodeProps_ok (keeps_prop hk) (takes := fun p n => decide (n = p.name)) (by
        intro p hp
        simp only [List.mem_singleton] at hp
        subst hp
        intro n; rfl) hx
      have := g rfl
      unfold Struct.propsFor at this
      rw [List.filter_eq_nil_iff] at this
      refine this q hq ?_
      simp [Struct.propField, List.findIdx?_cons, hbad]
    · exact neverClean_children (keeps_prop hk) rfl rfl hbad

open Demo in
/-- `n k=5` gives 5; `n x=5` is not accepted. -/
example {d} (h : unwrapFn (.named ['k']) (.plain (attrs (some (.property none)))) = .ok d) :
    d ⟨0, .mk none ⟨0, ['n']⟩ [] [(⟨0, ['k']⟩, int ['5'])] none⟩ = decodeValue .normal false num (int ['5']) ∧
    NeverClean (d ⟨0, .mk none ⟨0, ['n']⟩ [] [(⟨0, ['x']⟩, int ['5'])] none⟩) :=
  ⟨((c45_property rfl h _).1 rfl rfl).1 _ _ rfl rfl,
   (c45_property rfl h _).2.2 num_keeps (.inr (.inl ⟨_, List.mem_singleton.2 rfl, by simp [Externals.kebab]⟩))⟩

theorem propLoop_all [Externals] {s : Struct E S V} (h1 : s.properties = []) {vp} (h2 : s.varProps = some vp)
    (l : List (Spanned Str S × Value S)) (var : List (FVal V × FVal V)) :
    propLoop s l [] var = (do
      let ps ← D.collect (fun q => do
        let k ← liftConv q.1 (vp.impls.keyFromStr q.1.value)
        let v ← decodeValue vp.decode false vp.impls q.2
        pure (k, v)) l
      pure ([], var ++ ps)) := by
  induction l generalizing var with
  | nil => simp [propLoop, D.collect]
  | cons q l ih =>
    obtain ⟨k, v⟩ := q
    simp only [propLoop, h1, h2, List.zip_nil_left, propArms, pure_bind, Bool.false_eq_true, if_false, ih, D.collect, bind_assoc,
      List.append_assoc, List.singleton_append]

theorem childLoop_all [Externals] {s : Struct E S V} (h1 : s.children = []) {vc} (h2 : s.varChildren = some vc)
    (l : List (SpannedNode S)) (var : List (FVal V)) :
    childLoop s l [] var = (do
      let xs ← D.collect vc.decoder l
      pure ([], var ++ xs)) := by
  induction l generalizing var with
  | nil => simp [childLoop, D.collect]
  | cons q l ih =>
    simp only [childLoop, h1, h2, List.zip_nil_left, childArms, pure_bind, Bool.false_eq_true, if_false, ih, D.collect, bind_assoc,
      List.append_assoc, List.singleton_append]

theorem childLoop_multi [Externals] {s : Struct E S V} {ch : Child E S V} (h1 : s.children = [ch]) (hm : ch.mode = .multi)
    (l : List (SpannedNode S)) (hl : ∀ m ∈ l, m.value.nodeName.value = ch.name) (acc : List (FVal V)) :
    childLoop s l [.list acc] [] = (do
      let xs ← D.collect ch.decoder l
      pure ([.list (acc ++ xs)], [])) := by
  induction l generalizing acc with
  | nil => simp [childLoop, D.collect]
  | cons q l ih =>
    have hq := hl q List.mem_cons_self
    have ih := ih fun m hm => hl m (List.mem_cons_of_mem _ hm)
    simp only [childLoop, h1, List.zip_cons_cons, List.zip_nil_left, childArms, hm, reduceCtorEq, if_false, hq, if_true, childArm,
      FVal.push, bind_assoc, pure_bind, List.map_nil, ih, D.collect, List.append_assoc, List.singleton_append]

theorem D.ext {x y : D E S α} (h : ∀ c, x c = y c) : x = y := funext h

theorem neverClean_other [Externals] {s : Struct E S V} (hk : s.Keeps) (hnf : ∀ ch ∈ s.children, ch.mode ≠ .flatten)
    (hv : s.varChildren = none) {n m : SpannedNode S} (hm : m ∈ n.value.childNodes)
    (hno : ∀ ch ∈ s.children, m.value.nodeName.value ≠ ch.name) : NeverClean (decodeContent s n) := by
  rintro c ⟨x, c', h, he⟩
  unfold decodeContent at h
  rw [D.bind_ok_iff] at h
  obtain ⟨_, c1, ha, h⟩ := h
  rw [D.bind_ok_iff] at h
  obtain ⟨_, c2, hp, h⟩ := h
  rw [D.bind_ok_iff] at h
  obtain ⟨_, c3, h, hx⟩ := h
  rw [D.pure_ok_iff] at hx
  obtain ⟨-, rfl⟩ := hx
  have k := ((Keeps.decodeArgs hk _).ok ha).trans ((Keeps.decodeProps hk _).ok hp)
  have hn : s.ChildNames (fun ch n => decide (n = ch.name)) := by
    intro ch hch
    rw [if_neg (hnf ch hch)]
    intro n; rfl
  obtain ⟨-, -, -, g⟩ := decodeChildren_ok hk hn h
  have := g hv m (by
    unfold Struct.nodesFor
    rw [List.mem_filter]
    refine ⟨hm, ?_⟩
    simp only [decide_eq_true_eq, Struct.childField, List.findIdx?_eq_none_iff, decide_eq_false_iff_not]
    exact hno)
  obtain ⟨d1, d2, p1, p2, p3⟩ := this
  cases p2
  have l1 := p1.length_le
  have l2 := p3.length_le
  have l3 := k.length_le
  rw [Ctx.emitError_errors, List.length_append, he] at l2
  simp at l2
  omega

/-- `unwrap(properties)`: all properties, each with its key and its value.
Arguments and children are errors. -/
theorem c45_properties [Externals] {fn : Str} {i : FieldAttrs E S V} {d} (hm : i.base.mode = some .properties)
    (h : unwrapFn (.named fn) i = .ok d) (n : SpannedNode S) :
    (n.value.arguments = [] → n.value.childNodes = [] →
      d n = (do
        let ps ← D.collect (fun q => do
          let k ← match i.base.impls.keyFromStr q.1.value with
            | .ok k => pure k
            | .error m => D.fail (.conversion q.1.span (.text m))
          let v ← decodeValue (i.base.decode.getD .normal) false i.base.impls q.2
          pure (k, v)) n.value.properties
        pure (.pairs ps))) ∧
    (i.base.impls.Keeps → n.value.arguments ≠ [] ∨ n.value.childNodes ≠ [] → NeverClean (d n)) := by
  obtain ⟨s, hs, rfl, -⟩ := unwrapFn_ok h
  rw [addField_base, addFieldWith] at hs
  simp only [hm] at hs
  obtain rfl : { varProps := some ⟨.named fn, i.base.decode.getD .normal, i.base.impls⟩ } = s := by
    cases hs; rfl
  refine ⟨?_, ?_⟩
  · intro ha hc
    unfold unwrapNode decodeContent
    rw [decodeArgs_nothing rfl rfl ha, hc, decodeChildren_nothing rfl rfl]
    simp only [decodeProps, List.map_nil]
    rw [propLoop_all rfl rfl]
    simp only [List.zip_nil_left, finishProps, bind_assoc, pure_bind, List.cons_append, List.nil_append, Env.get_self]
    congr 2
    funext q
    unfold liftConv
    cases i.base.impls.keyFromStr q.1.value <;> rfl
  · intro hk hbad
    apply NeverClean.unwrap
    rcases hbad with hbad | hbad
    · exact neverClean_args rfl rfl hbad
    · exact neverClean_children (keeps_varProps hk) rfl rfl hbad

open Demo in
example {d} (h : unwrapFn (.named ['k']) (.plain (attrs (some .properties))) = .ok d) :
    NeverClean (d (nd 'k' [int ['5']])) :=
  (c45_properties rfl h _).2 num_keeps (.inl (by simp [nd, Node.arguments]))

/-- `unwrap(children)`: what is decoded from all children.  Arguments and properties are errors. -/
theorem c45_children [Externals] {fn : Str} {i : FieldAttrs E S V} {d dec} (hm : i.base.mode = some (.children none))
    (hdec : i.inside fn = .ok dec) (h : unwrapFn (.named fn) i = .ok d) (n : SpannedNode S) :
    (n.value.arguments = [] → n.value.properties = [] →
      d n = (do let xs ← D.collect dec n.value.childNodes; pure (.list xs))) ∧
    (n.value.arguments ≠ [] ∨ n.value.properties ≠ [] → NeverClean (d n)) := by
  obtain ⟨s, hs, rfl, -⟩ := unwrapFn_ok h
  rw [addField_base, addFieldWith] at hs
  simp only [hm, hdec] at hs
  obtain rfl : { varChildren := some ⟨.named fn, dec⟩ } = s := by
    cases hn : i.base.noDecode <;> rw [hn] at hs <;> cases hs
    rfl
  refine ⟨?_, ?_⟩
  · intro ha hp
    unfold unwrapNode decodeContent
    rw [decodeArgs_nothing rfl rfl ha, decodeProps_nothing rfl rfl hp]
    simp only [decodeChildren, List.map_nil]
    rw [childLoop_all rfl rfl]
    simp only [List.zip_nil_left, finishChildren, bind_assoc, pure_bind, List.nil_append, Env.get_self]
  · intro hbad
    apply NeverClean.unwrap
    rcases hbad with hbad | hbad
    · exact neverClean_args rfl rfl hbad
    · exact neverClean_props rfl rfl hbad

open Demo in
example {d} (h : unwrapFn (.named ['k']) (.plain (attrs (some (.children none)))) = .ok d) :
    d ⟨0, .mk none ⟨0, ['n']⟩ [] [] (some ⟨0, [nd 'x', nd 'y']⟩)⟩ =
      (do let xs ← D.collect num.node [nd 'x', nd 'y']; pure (.list xs)) :=
  (c45_children rfl rfl h _).1 rfl rfl

/-- `unwrap(children(name=".."))`: what is decoded from the children, which all
have that name; the default, if there is one and no children.  Arguments,
properties and other children are errors. -/
theorem c45_children_named [Externals] {fn : Str} {i : FieldAttrs E S V} {d dec} {name : Str}
    (hm : i.base.mode = some (.children (some name)))
    (hdec : i.inside fn = .ok dec) (h : unwrapFn (.named fn) i = .ok d) (n : SpannedNode S) :
    (n.value.arguments = [] → n.value.properties = [] → (∀ m ∈ n.value.childNodes, m.value.nodeName.value = name) →
      (n.value.childNodes ≠ [] ∨ i.base.defaultVal = none →
        d n = (do let xs ← D.collect dec n.value.childNodes; pure (.list xs))) ∧
      (n.value.childNodes = [] → ∀ v, i.base.defaultVal = some v → d n = pure v)) ∧
    (n.value.arguments ≠ [] ∨ n.value.properties ≠ [] → NeverClean (d n)) ∧
    (i.base.impls.Keeps → (∀ m, Keeps (dec m)) → (∃ m ∈ n.value.childNodes, m.value.nodeName.value ≠ name) → NeverClean (d n)) := by
  obtain ⟨s, hs, rfl, -⟩ := unwrapFn_ok h
  rw [addField_base, addFieldWith] at hs
  simp only [hm, hdec] at hs
  obtain rfl : { children := [⟨.named fn, name, false, .multi, i.base.defaultVal, dec, i.base.impls⟩] } = s := by
    cases hn : i.base.noDecode <;> rw [hn] at hs <;> cases hs
    rfl
  refine ⟨?_, ?_, ?_⟩
  · intro ha hp hall
    unfold unwrapNode decodeContent
    rw [decodeArgs_nothing rfl rfl ha, decodeProps_nothing rfl rfl hp]
    simp only [decodeChildren, List.map_nil, List.map_cons, Child.init]
    rw [childLoop_multi rfl rfl _ hall]
    constructor
    · intro hne
      simp only [List.zip_cons_cons, List.zip_nil_left, finishChildren, bind_assoc, pure_bind, List.nil_append]
      refine D.ext fun c => ?_
      cases hc : D.collect dec n.value.childNodes c with
      | ok xs c' =>
        rw [D.bind_ok hc, D.bind_ok hc]
        have : Child.finish ⟨.named fn, name, false, .multi, i.base.defaultVal, dec, i.base.impls⟩ (some n.span) (.list xs) =
            pure (.list xs) := by
          unfold Child.finish
          dsimp only
          rcases hne with hne | hne
          · have : xs ≠ [] := by
              intro hx
              rw [hx] at hc
              cases hl : n.value.childNodes with
              | nil => exact hne hl
              | cons m ms =>
                rw [hl, D.collect, D.bind_ok_iff] at hc
                obtain ⟨_, _, _, hc⟩ := hc
                rw [D.bind_ok_iff] at hc
                obtain ⟨_, _, _, hc⟩ := hc
                cases hc
            cases xs with
            | nil => exact absurd rfl this
            | cons _ _ => rfl
          · rw [hne]
            cases xs <;> rfl
        rw [this]
        simp only [pure_bind, Env.get_self]
      | err e c' => rw [D.bind_err hc, D.bind_err hc]
      | panic => rw [D.bind_panic hc, D.bind_panic hc]
    · intro hnil v hv
      rw [hnil]
      simp only [D.collect, List.zip_cons_cons, List.zip_nil_left, finishChildren, Child.finish, hv, pure_bind, List.nil_append,
        Env.get_self]
  · intro hbad
    apply NeverClean.unwrap
    rcases hbad with hbad | hbad
    · exact neverClean_args rfl rfl hbad
    · exact neverClean_props rfl rfl hbad
  · rintro hk hkd ⟨m, hm, hbad⟩
    apply NeverClean.unwrap
    exact neverClean_other (keeps_child hk hkd) (by simp) rfl hm (by simpa using hbad)

open Demo in
example {d} (h : unwrapFn (.named ['k']) (.plain (attrs (some (.children (some ['x']))))) = .ok d) :
    d ⟨0, .mk none ⟨0, ['n']⟩ [] [] (some ⟨0, [nd 'x', nd 'x']⟩)⟩ =
      (do let xs ← D.collect num.node [nd 'x', nd 'x']; pure (.list xs)) :=
  ((c45_children_named rfl rfl h _).1 rfl rfl (by simp [Node.childNodes, Node.children, nd, Node.nodeName])).1 (.inr rfl)

/-- `unwrap(child)`: what is decoded from the only child, which has the name of
the field.  Without children, the default if there is one, and else an error.
Arguments, properties and other children are errors. -/
theorem c45_child [Externals] {fn : Str} {i : FieldAttrs E S V} {d dec} (hm : i.base.mode = some .child)
    (hdec : i.inside fn = .ok dec) (h : unwrapFn (.named fn) i = .ok d) (n : SpannedNode S) :
    (n.value.arguments = [] → n.value.properties = [] →
      (∀ m, n.value.childNodes = [m] → m.value.nodeName.value = Externals.kebab fn → d n = dec m) ∧
      (n.value.childNodes = [] → ∀ v, i.base.defaultVal = some v → d n = pure v) ∧
      (n.value.childNodes = [] → i.base.defaultVal = none → ∀ c,
        d n c = .err (.missing n.span ("child node `".toList ++ Externals.kebab fn ++ "` is required".toList)) c)) ∧
    (n.value.arguments ≠ [] ∨ n.value.properties ≠ [] → NeverClean (d n)) ∧
    (i.base.impls.Keeps → (∀ m, Keeps (dec m)) →
      1 < n.value.childNodes.length ∨ (∃ m ∈ n.value.childNodes, m.value.nodeName.value ≠ Externals.kebab fn) → NeverClean (d n)) := by
  obtain ⟨s, hs, rfl, -⟩ := unwrapFn_ok h
  rw [addField_base, addFieldWith] at hs
  simp only [hm, hdec] at hs
  obtain rfl : { children := [⟨.named fn, Externals.kebab fn, false, .normal, i.base.defaultVal, dec, i.base.impls⟩] } = s := by
    cases hn : i.base.noDecode <;> rw [hn] at hs <;> cases hs
    simp
  refine ⟨?_, ?_, ?_⟩
  · intro ha hp
    unfold unwrapNode decodeContent
    rw [decodeArgs_nothing rfl rfl ha, decodeProps_nothing rfl rfl hp]
    refine ⟨?_, ?_, ?_⟩
    · intro m hc hname
      rw [hc]
      simp only [decodeChildren, List.map_nil, List.map_cons, Child.init, childLoop, List.zip_cons_cons, List.zip_nil_left, childArms,
        reduceCtorEq, if_false, hname, if_true, childArm, FVal.isSome, Bool.false_eq_true, bind_assoc, pure_bind, finishChildren,
        Child.finish]
      cases i.base.defaultVal <;>
        simp only [List.nil_append, Env.get_self, bind_pure]
    · intro hc v hv
      rw [hc]
      simp only [decodeChildren, List.map_nil, List.map_cons, Child.init, childLoop, List.zip_cons_cons, List.zip_nil_left,
        pure_bind, finishChildren, Child.finish, hv, List.nil_append, Env.get_self]
    · intro hc hv c
      rw [hc]
      simp only [decodeChildren, List.map_nil, List.map_cons, Child.init, childLoop, List.zip_cons_cons, List.zip_nil_left,
        pure_bind, finishChildren, Child.finish, hv]
      rfl
  · intro hbad
    apply NeverClean.unwrap
    rcases hbad with hbad | hbad
    · exact neverClean_args rfl rfl hbad
    · exact neverClean_props rfl rfl hbad
  · rintro hk hkd hbad
    apply NeverClean.unwrap
    by_cases hall : ∃ m ∈ n.value.childNodes, m.value.nodeName.value ≠ Externals.kebab fn
    · obtain ⟨m, hm, hbad⟩ := hall
      exact neverClean_other (keeps_child hk hkd) (by simp) rfl hm (by simpa using hbad)
    · have hlen := hbad.resolve_right hall
      rintro c ⟨x, c', hx, -⟩
      unfold decodeContent at hx
      rw [D.bind_ok_iff] at hx
      obtain ⟨_, _, -, hx⟩ := hx
      rw [D.bind_ok_iff] at hx
      obtain ⟨_, _, -, hx⟩ := hx
      rw [D.bind_ok_iff] at hx
      obtain ⟨_, _, hx, -⟩ := hx
      obtain ⟨hn, hf, -⟩ := c40_plain (s := { children := [⟨.named fn, Externals.kebab fn, false, .normal, i.base.defaultVal, dec,
        i.base.impls⟩] }) (by simp) (by simp) n.value.childNodes
      obtain ⟨-, g, -, -⟩ := decodeChildren_ok (keeps_child hk hkd) hn hx
      obtain ⟨x, -, hg⟩ := g 0 _ rfl
      rw [hf 0 _ rfl] at hg
      have : (n.value.childNodes.filter fun m => m.value.nodeName.value = Externals.kebab fn) = n.value.childNodes := by
        rw [List.filter_eq_self]
        intro m hm
        by_contra hmm
        exact hall ⟨m, hm, by simpa using hmm⟩
      rw [this] at hg
      unfold ChildGets at hg
      dsimp only at hg
      match hl : n.value.childNodes with
      | [] => rw [hl] at hlen; simp at hlen
      | [_] => rw [hl] at hlen; simp at hlen
      | _ :: _ :: _ => rw [hl] at hg; exact hg

open Demo in
/-- Two levels of `unwrap`: `n { k 5 }` gives 5. -/
example {d dec} (hdec : unwrapFn (.named ['k']) (.plain (attrs (some .argument))) = .ok dec)
    (h : unwrapFn (.named ['k']) (.unwrapped (attrs (some .child)) (.plain (attrs (some .argument)))) = .ok d) :
    d ⟨0, .mk none ⟨0, ['n']⟩ [] [] (some ⟨0, [nd 'k' [int ['5']]]⟩)⟩ = decodeValue .normal false num (int ['5']) := by
  rw [((c45_child (fn := ['k']) (i := .unwrapped (attrs (some .child)) (.plain (attrs (some .argument)))) rfl hdec h _).1
    rfl rfl).1 _ rfl rfl]
  exact ((c45_argument rfl hdec (nd 'k' [int ['5']])).1 rfl rfl).1 _ rfl

end Knuffel
