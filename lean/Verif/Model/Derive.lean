import Verif.Model.Decode
/-!
# The derived decoders

Models `derive/src/definition.rs` (how the fields of a struct are classified)
and `derive/src/node.rs`, `derive/src/variants.rs`, `derive/src/scalar.rs` (the
code that is generated), as an interpreter: `Struct.node s` is the function
that the macro generates for the struct description `s`.

Rust types of fields are not modelled; all field values live in one type
`FVal V`.  Wherever the generated code calls a trait method of a field type, the
model calls a component of `Impls`, the implementations that rustc selects for
the field; they are arbitrary.  The attribute syntax is in
`Model/Attrs.lean`; generics and spans of the macro input are not modelled.
-/

namespace Knuffel

/-- derive/src/definition.rs:89-93. -/
inductive AttrAccess where
  | indexed (i : Nat)
  | named (name : Str)
deriving DecidableEq, Repr

/-- Values of fields: a value of some other Rust type (`leaf`), an `Option`, a
`bool`, a collection, a collection of pairs, a struct, an enum variant. Used for derive/src/node.rs:58-73. -/
inductive FVal (V : Type) where
  | leaf (v : V)
  | none
  | some (x : FVal V)
  | bool (b : Bool)
  | list (xs : List (FVal V))
  | pairs (xs : List (FVal V × FVal V))
  | record (fields : List (AttrAccess × FVal V))
  | variant (name : Str) (payload : FVal V)

/-- The local variables of the generated code that hold field values, and the
struct made of them. derive/src/node.rs:58-73. -/
abbrev Env (V : Type) := List (AttrAccess × FVal V)

/-- The implementations selected for a field by its type:
`DecodeScalar`, `Decode`, `DecodePartial`, `FromStr`, `TryFrom<Vec<u8>>`,
`FromStr` of the key of a map, `DecodeSpan` and `Default`. Used for derive/src/node.rs:220-310,
620-626, 658-750. -/
structure Impls (E S V : Type) where
  scalar : Scalar E S (FVal V)
  node : NodeDecoder E S (FVal V)
  part : Partial E S (FVal V)
  fromStr : Str → Except Str (FVal V)
  fromBytes : List UInt8 → Except Str (FVal V)
  keyFromStr : Str → Except Str (FVal V)
  span : SpanDecoder E S (FVal V)
  default : FVal V

/-- derive/src/definition.rs:33-45, with `Flatten` (52-56). -/
inductive FieldMode where
  | argument
  | property (name : Option Str)
  | arguments
  | properties
  | children (name : Option Str)
  | child
  | flatten (child property : Bool)
  | span
  | nodeName
  | typeName
deriving DecidableEq, Repr

/-- derive/src/definition.rs:58-63. -/
inductive DecodeMode where
  | normal | str | bytes
deriving DecidableEq, Repr

/-- What the attributes of a field say apart from `unwrap`, with the
implementations for its type.  derive/src/definition.rs:75-81.  `default` is
`some none` for `default` and `some (some v)` for `default=v`. -/
structure PlainAttrs (E S V : Type) where
  mode : Option FieldMode
  decode : Option DecodeMode
  default : Option (Option (FVal V))
  impls : Impls E S V

/-- derive/src/definition.rs:75-81: attributes without and with `unwrap`. -/
inductive FieldAttrs (E S V : Type) where
  | plain (a : PlainAttrs E S V)
  | unwrapped (a : PlainAttrs E S V) (inner : FieldAttrs E S V)

/-- The attributes apart from `unwrap`. Used for derive/src/definition.rs:75-81. -/
def FieldAttrs.base {E S V : Type} : FieldAttrs E S V → PlainAttrs E S V
  | plain a => a
  | unwrapped a _ => a

/-- `attrs.unwrap.is_some()`. derive/src/definition.rs:79. -/
def FieldAttrs.hasUnwrap {E S V : Type} : FieldAttrs E S V → Bool
  | plain _ => false
  | unwrapped _ _ => true

variable {E S V : Type}

/-- The default expression of a field, if any: `default` alone means
`Default::default()`. derive/src/node.rs:417-421, 501-505, 792-796, 850-854. -/
def PlainAttrs.defaultVal (a : PlainAttrs E S V) : Option (FVal V) :=
  a.default.map fun d => d.getD a.impls.default

/-- derive/src/definition.rs:102-104. -/
structure SpanField (E S V : Type) where
  field : AttrAccess
  impls : Impls E S V

/-- derive/src/definition.rs:106-108. -/
structure NodeNameField (E S V : Type) where
  field : AttrAccess
  impls : Impls E S V

/-- derive/src/definition.rs:110-113. -/
structure TypeNameField (E S V : Type) where
  field : AttrAccess
  option : Bool
  impls : Impls E S V

/-- derive/src/definition.rs:115-121 (`kind` and `option` are always equal, 411-415). -/
structure Arg (E S V : Type) where
  field : AttrAccess
  option : Bool
  decode : DecodeMode
  default : Option (FVal V)
  impls : Impls E S V

/-- derive/src/definition.rs:123-126. -/
structure VarArgs (E S V : Type) where
  field : AttrAccess
  decode : DecodeMode
  impls : Impls E S V

/-- derive/src/definition.rs:128-135. -/
structure Prop' (E S V : Type) where
  field : AttrAccess
  name : Str
  option : Bool
  decode : DecodeMode
  flatten : Bool
  default : Option (FVal V)
  impls : Impls E S V

/-- derive/src/definition.rs:137-140. -/
structure VarProps (E S V : Type) where
  field : AttrAccess
  decode : DecodeMode
  impls : Impls E S V

/-- derive/src/definition.rs:142-147. -/
inductive ChildMode where
  | normal | flatten | multi | bool
deriving DecidableEq, Repr

/-- derive/src/definition.rs:149-156.  In place of the attributes under
`unwrap` there is the function that decodes the child node: either
`Decode::decode_node` or the closure made by `unwrap_fn` (node.rs:620-626). -/
structure Child (E S V : Type) where
  field : AttrAccess
  name : Str
  option : Bool
  mode : ChildMode
  default : Option (FVal V)
  decoder : NodeDecoder E S (FVal V)
  impls : Impls E S V

/-- derive/src/definition.rs:158-161; the decoding function as in `Child`. -/
structure VarChildren (E S V : Type) where
  field : AttrAccess
  decoder : NodeDecoder E S (FVal V)

/-- derive/src/definition.rs:167-171. -/
structure ExtraField (E S V : Type) where
  field : AttrAccess
  option : Bool
  impls : Impls E S V

/-- derive/src/definition.rs:178-194; also `StructBuilder` (196-210), which has
the same fields but for the two derived flags. -/
structure Struct (E S V : Type) where
  spans : List (SpanField E S V) := []
  nodeNames : List (NodeNameField E S V) := []
  typeNames : List (TypeNameField E S V) := []
  arguments : List (Arg E S V) := []
  varArgs : Option (VarArgs E S V) := none
  properties : List (Prop' E S V) := []
  varProps : Option (VarProps E S V) := none
  children : List (Child E S V) := []
  varChildren : Option (VarChildren E S V) := none
  extraFields : List (ExtraField E S V) := []

namespace Struct
/-- derive/src/definition.rs:385-386. -/
def hasArguments (s : Struct E S V) : Bool := !s.arguments.isEmpty || s.varArgs.isSome
/-- derive/src/definition.rs:387-388. -/
def hasProperties (s : Struct E S V) : Bool := !s.properties.isEmpty || s.varProps.isSome
/-- `all_fields`. derive/src/definition.rs:606-619. -/
def allFields (s : Struct E S V) : List AttrAccess :=
  s.spans.map (·.field) ++ s.nodeNames.map (·.field) ++ s.typeNames.map (·.field) ++
  s.arguments.map (·.field) ++ s.varArgs.toList.map (·.field) ++
  s.properties.map (·.field) ++ s.varProps.toList.map (·.field) ++
  s.children.map (·.field) ++ s.varChildren.toList.map (·.field) ++
  s.extraFields.map (·.field)
end Struct

/-! ## Generated code -/

section Generated
variable [Externals]

/-- `?` on a `Result` of a conversion whose error becomes `DecodeError::conversion`. Used for
derive/src/node.rs:240-255, 271-285. -/
def liftConv {α : Type} (x : Spanned α S) (r : Except Str (FVal V)) : D E S (FVal V) :=
  match r with
  | .ok v => pure v
  | .error m => D.fail (DErr.conv x (.text m))

/-- The type-name check of `str` fields. derive/src/node.rs:232-239, 263-270. -/
def strTypeCheck (tn : Option (Spanned TypeName S)) : D E S Unit :=
  match tn with
  | some typ => D.emit (.typeName typ.span (some typ.value) ExpectedType.none "str".toList)
  | none => pure ()

/-- `decode_value`. derive/src/node.rs:220-310. -/
def decodeValue (mode : DecodeMode) (optional : Bool) (impls : Impls E S V) (val : Value S) :
    D E S (FVal V) :=
  match mode, optional with
  | .normal, _ => impls.scalar.decode val
  | .str, true => do
    strTypeCheck val.typeName
    match val.literal.value with
    | .string s => do
      let v ← liftConv val.literal (impls.fromStr s)
      pure (.some v)
    | .null => pure .none
    | _ => do
      D.emit (DErr.kind .string val.literal)
      pure .none
  | .str, false => do
    strTypeCheck val.typeName
    match val.literal.value with
    | .string s => liftConv val.literal (impls.fromStr s)
    | _ => D.fail (DErr.kind .string val.literal)
  | .bytes, true =>
    match val.literal.value with
    | .null => pure .none
    | _ => do
      let b ← decodeBytes val
      match impls.fromBytes b with
      | .ok v => pure (.some v)
      | .error m => do
        D.emit (DErr.conv val.literal (.text m))
        pure .none
  | .bytes, false => do
    let b ← decodeBytes val
    liftConv val.literal (impls.fromBytes b)

/-- The span fields. derive/src/node.rs:316-324. -/
def decodeSpans (node : SpannedNode S) : List (SpanField E S V) → D E S (Env V)
  | [] => pure []
  | f :: fs => do
    let v ← f.impls.span.run node.span
    let env ← decodeSpans node fs
    pure ((f.field, v) :: env)

/-- The node-name fields. derive/src/node.rs:325-334. -/
def decodeNodeNames (node : SpannedNode S) : List (NodeNameField E S V) → D E S (Env V)
  | [] => pure []
  | f :: fs => do
    let v ← liftConv node.value.nodeName (f.impls.fromStr node.value.nodeName.value)
    let env ← decodeNodeNames node fs
    pure ((f.field, v) :: env)

/-- One type-name field. derive/src/node.rs:337-360. -/
def decodeTypeName (node : SpannedNode S) (f : TypeNameField E S V) : D E S (FVal V) :=
  match node.value.typeName with
  | some tn => do
    let v ← liftConv tn (f.impls.fromStr tn.value.asStr)
    pure (if f.option then .some v else v)
  | none =>
    if f.option then pure .none
    else D.fail (DErr.missingIn node "type name required".toList)

/-- The type-name fields. derive/src/node.rs:335-361. -/
def decodeTypeNames (node : SpannedNode S) : List (TypeNameField E S V) → D E S (Env V)
  | [] => pure []
  | f :: fs => do
    let v ← decodeTypeName node f
    let env ← decodeTypeNames node fs
    pure ((f.field, v) :: env)

/-- `decode_specials`. derive/src/node.rs:312-379. -/
def decodeSpecials (s : Struct E S V) (node : SpannedNode S) : D E S (Env V) := do
  let a ← decodeSpans node s.spans
  let b ← decodeNodeNames node s.nodeNames
  let c ← decodeTypeNames node s.typeNames
  if s.typeNames.isEmpty then
    match node.value.typeName with
    | some tn =>
      D.emit (DErr.unexp tn "type name".toList "no type name expected for this node".toList)
    | none => pure ()
  pure (a ++ b ++ c)

/-- The message for a missing argument. derive/src/node.rs:402-406. -/
def argError : AttrAccess → Str
  | .indexed _ => "additional argument is required".toList
  | .named n => "additional argument `".toList ++ n ++ "` is required".toList

/-- One argument field: takes the next argument, if there is one.
derive/src/node.rs:388-431. -/
def decodeArg (node : SpannedNode S) (a : Arg E S V) (args : List (Value S)) :
    D E S (FVal V × List (Value S)) :=
  match args, a.default, a.option with
  | v :: rest, _, _ => do
    let x ← decodeValue a.decode a.option a.impls v
    pure (x, rest)
  | [], some d, _ => pure (d, [])
  | [], none, true => pure (.none, [])
  | [], none, false => D.fail (DErr.missingIn node (argError a.field))

/-- The argument fields in order, and the arguments that are left.
derive/src/node.rs:385-431. -/
def decodeArgList (node : SpannedNode S) :
    List (Arg E S V) → List (Value S) → D E S (Env V × List (Value S))
  | [], args => pure ([], args)
  | a :: as, args => do
    let r ← decodeArg node a args
    let t ← decodeArgList node as r.2
    pure ((a.field, r.1) :: t.1, t.2)

/-- `decode_args`. derive/src/node.rs:381-451. -/
def decodeArgs (s : Struct E S V) (node : SpannedNode S) : D E S (Env V) := do
  let r ← decodeArgList node s.arguments node.value.arguments
  match s.varArgs with
  | some va => do
    let xs ← D.collect (decodeValue va.decode false va.impls) r.2
    pure (r.1 ++ [(va.field, .list xs)])
  | none =>
    match r.2 with
    | val :: _ => D.fail (unexpectedArgument val)
    | [] => pure r.1

/-- The variables of a property field while the properties are read: the
variable `#fld` and the flag `seen_#fld`. derive/src/node.rs:468-484. -/
structure PropState (V : Type) where
  fld : FVal V
  seen : Bool

/-- derive/src/node.rs:469-484. -/
def Prop'.init (p : Prop' E S V) : PropState V :=
  if p.flatten then ⟨p.impls.default, false⟩ else ⟨.none, false⟩

/-- The `match` over property names: the first arm that applies. The result
says whether one did.  derive/src/node.rs:473-498, 561-563. -/
def propArms (name : Spanned Str S) (val : Value S) :
    List (Prop' E S V × PropState V) → D E S (Bool × List (PropState V))
  | [] => pure (false, [])
  | (p, st) :: rest =>
    if p.flatten then do
      let r ← p.impls.part.insertProperty st.fld name val
      if r.1 then pure (true, { st with fld := r.2 } :: rest.map (·.2))
      else do
        let t ← propArms name val rest
        pure (t.1, { st with fld := r.2 } :: t.2)
    else if name.value = p.name then do
      let x ← decodeValue p.decode p.option p.impls val
      if p.option then pure (true, ⟨x, true⟩ :: rest.map (·.2))
      else pure (true, ⟨.some x, st.seen⟩ :: rest.map (·.2))
    else do
      let t ← propArms name val rest
      pure (t.1, st :: t.2)

/-- The loop over the properties of the node; `var` collects the pairs of the
`properties` field.  derive/src/node.rs:527-565. -/
def propLoop (s : Struct E S V) :
    List (Spanned Str S × Value S) → List (PropState V) → List (FVal V × FVal V) →
    D E S (List (PropState V) × List (FVal V × FVal V))
  | [], sts, var => pure (sts, var)
  | (name, val) :: rest, sts, var => do
    let r ← propArms name val (s.properties.zip sts)
    if r.1 then propLoop s rest r.2 var
    else
      match s.varProps with
      | some vp => do
        let k ← liftConv name (vp.impls.keyFromStr name.value)
        let v ← decodeValue vp.decode false vp.impls val
        propLoop s rest r.2 (var ++ [(k, v)])
      | none => D.fail (unexpectedProperty name)

/-- What happens to a property field after the loop. derive/src/node.rs:499-525. -/
def Prop'.finish (p : Prop' E S V) (node : SpannedNode S) (st : PropState V) : D E S (FVal V) :=
  if p.flatten then pure st.fld
  else
    match p.default, p.option with
    | some d, true => pure (if st.seen then st.fld else d)
    | some d, false =>
      match st.fld with
      | .some x => pure x
      | _ => pure d
    | none, true => pure st.fld
    | none, false =>
      match st.fld with
      | .some x => pure x
      | _ => D.fail (DErr.missingIn node
          ("property `".toList ++ p.name ++ "` is required".toList))

/-- All property fields after the loop. derive/src/node.rs:565. -/
def finishProps (node : SpannedNode S) : List (Prop' E S V × PropState V) → D E S (Env V)
  | [] => pure []
  | (p, st) :: rest => do
    let x ← p.finish node st
    let env ← finishProps node rest
    pure ((p.field, x) :: env)

/-- `decode_props`. derive/src/node.rs:453-567. -/
def decodeProps (s : Struct E S V) (node : SpannedNode S) : D E S (Env V) := do
  let r ← propLoop s node.value.properties (s.properties.map (·.init)) []
  let env ← finishProps node (s.properties.zip r.1)
  match s.varProps with
  | some vp => pure (env ++ [(vp.field, .pairs r.2)])
  | none => pure env

/-- `#fld.is_some()`. Used for derive/src/node.rs:692, 836. -/
def FVal.isSome : FVal V → Bool
  | .some _ => true
  | _ => false

/-- The message for a duplicate child. derive/src/node.rs:671-672, 687-688, 832-834, 880-882. -/
def duplicateNode (child : Child E S V) (node : SpannedNode S) : DErr S :=
  DErr.unexp node.value.nodeName "node".toList
    ("duplicate node `".toList ++ escapeDefault child.name ++ "`, single node expected".toList)

/-- The variable of a child field before the children are read.
derive/src/node.rs:768, 784, 829, 883. -/
def Child.init (c : Child E S V) : FVal V :=
  match c.mode with
  | .flatten => c.impls.default
  | .multi => .list []
  | .normal => .none
  | .bool => .bool false

/-- `#fld.push(v)`. Used for derive/src/node.rs:642-655. -/
def FVal.push (l : FVal V) (x : FVal V) : FVal V :=
  match l with
  | .list xs => .list (xs ++ [x])
  | v => v

/-- The body of the arm of a named child field: the new value of the variable.
derive/src/node.rs:642-655 (decode and assign), 788-790, 836-846, 886-898. -/
def childArm (c : Child E S V) (fld : FVal V) (child : SpannedNode S) : D E S (FVal V) :=
  match c.mode with
  | .multi => do
    let v ← c.decoder child
    pure (fld.push v)
  | .normal =>
    if fld.isSome then D.fail (duplicateNode c child)
    else do
      let v ← c.decoder child
      pure (.some v)
  | .bool => do
    checkFlagNode child
    match fld with
    | .bool true => do
      D.emit (duplicateNode c child)
      pure fld
    | _ => pure (.bool true)
  | .flatten => pure fld

/-- The `match` over child names: the first arm that applies; the result says
whether one did.  derive/src/node.rs:766-900. -/
def childArms (child : SpannedNode S) :
    List (Child E S V × FVal V) → D E S (Bool × List (FVal V))
  | [] => pure (false, [])
  | (c, fld) :: rest =>
    if c.mode = .flatten then do
      let r ← c.impls.part.insertChild fld child
      if r.1 then pure (true, r.2 :: rest.map (·.2))
      else do
        let t ← childArms child rest
        pure (t.1, r.2 :: t.2)
    else if child.value.nodeName.value = c.name then do
      let v ← childArm c fld child
      pure (true, v :: rest.map (·.2))
    else do
      let t ← childArms child rest
      pure (t.1, fld :: t.2)

/-- The loop over the children; `var` collects the nodes of the `children`
field; `collect` stops at the first error.  derive/src/node.rs:902-951. -/
def childLoop (s : Struct E S V) :
    List (SpannedNode S) → List (FVal V) → List (FVal V) → D E S (List (FVal V) × List (FVal V))
  | [], flds, var => pure (flds, var)
  | child :: rest, flds, var => do
    let r ← childArms child (s.children.zip flds)
    if r.1 then childLoop s rest r.2 var
    else
      match s.varChildren with
      | some vc => do
        let v ← vc.decoder child
        childLoop s rest r.2 (var ++ [v])
      | none => do
        D.emit (unexpectedNode child)
        childLoop s rest r.2 var

/-- The error for a missing child: at the node, or without a place when the
children are those of the document. derive/src/node.rs:847-876. -/
def missingChild (errSpan : Option S) (c : Child E S V) : DErr S :=
  let message := "child node `".toList ++ c.name ++ "` is required".toList
  match errSpan with
  | some span => .missing span message
  | none => .missingNode message

/-- What happens to a child field after the loop. derive/src/node.rs:791-826
(`children(name)`), 847-877 (`child`). -/
def Child.finish (c : Child E S V) (errSpan : Option S) (fld : FVal V) : D E S (FVal V) :=
  match c.mode with
  | .flatten => pure fld
  | .bool => pure fld
  | .multi =>
    match fld, c.default, c.option with
    | .list [], some d, _ => pure d
    | .list [], none, true => pure .none
    | v, _, true => pure (.some v)
    | v, _, false => pure v
  | .normal =>
    match c.default, c.option with
    | some d, _ =>
      match fld with
      | .some x => pure x
      | _ => pure d
    | none, true => pure fld
    | none, false =>
      match fld with
      | .some x => pure x
      | _ => D.fail (missingChild errSpan c)

/-- All child fields after the loop. derive/src/node.rs:929, 949. -/
def finishChildren (errSpan : Option S) : List (Child E S V × FVal V) → D E S (Env V)
  | [] => pure []
  | (c, fld) :: rest => do
    let x ← c.finish errSpan fld
    let env ← finishChildren errSpan rest
    pure ((c.field, x) :: env)

/-- `decode_children`. derive/src/node.rs:752-952. -/
def decodeChildren (s : Struct E S V) (errSpan : Option S) (children : List (SpannedNode S)) :
    D E S (Env V) := do
  let r ← childLoop s children (s.children.map (·.init)) []
  let env ← finishChildren errSpan (s.children.zip r.1)
  match s.varChildren with
  | some vc => pure (env ++ [(vc.field, .list r.2)])
  | none => pure env

/-- `assign_extra`. derive/src/node.rs:954-964. -/
def assignExtra (s : Struct E S V) : Env V := s.extraFields.map fun f => (f.field, f.impls.default)

/-- The arguments, properties and children of a node, which is what
`decode_enum_item` and `unwrap_fn` decode. derive/src/node.rs:210-214, 598-602. -/
def decodeContent (s : Struct E S V) (node : SpannedNode S) : D E S (Env V) := do
  let a ← decodeArgs s node
  let p ← decodeProps s node
  let c ← decodeChildren s (some node.span) node.value.childNodes
  pure (a ++ p ++ c)

/-- The derived `Decode::decode_node` of a struct. derive/src/node.rs:137-153. -/
def Struct.node (s : Struct E S V) : NodeDecoder E S (FVal V) := fun node => do
  let sp ← decodeSpecials s node
  let body ← decodeContent s node
  pure (.record (sp ++ body ++ assignExtra s))

/-- Is `DecodeChildren` derived? derive/src/node.rs:114-116. -/
def Struct.isRoot (s : Struct E S V) : Bool :=
  !s.hasArguments && !s.hasProperties && s.spans.isEmpty && s.nodeNames.isEmpty && s.typeNames.isEmpty

/-- The derived `DecodeChildren::decode_children` of a struct.
derive/src/node.rs:117-133. -/
def Struct.root (s : Struct E S V) : ChildrenDecoder E S (FVal V) := fun children => do
  let c ← decodeChildren s none children
  pure (.record (c ++ assignExtra s))

/-- `child_can_partial`. derive/src/node.rs:15-19. -/
def Child.canPartial (c : Child E S V) : Bool := c.option || c.mode = .bool || c.mode = .flatten

/-- Is `DecodePartial` derived? derive/src/node.rs:75-84. -/
def Struct.partialCompatible (s : Struct E S V) : Bool :=
  s.spans.isEmpty && s.nodeNames.isEmpty && s.typeNames.isEmpty && !s.hasArguments &&
  (s.properties.all (fun p => p.option || p.flatten) && s.varProps.isNone) &&
  (s.children.all Child.canPartial && s.varChildren.isNone)

/-- Reading `self.field`. derive/src/definition.rs:949-954. -/
def FVal.field (f : AttrAccess) : FVal V → FVal V
  | .record fields => ((fields.find? fun p => p.1 = f).map (·.2)).getD .none
  | v => v

/-- Assigning one of the fields of a struct (they have different names). Used for derive/src/node.rs:658-750. -/
def Env.set (f : AttrAccess) (x : FVal V) : Env V → Env V
  | [] => []
  | (g, y) :: env => if g = f then (g, x) :: env else (g, y) :: Env.set f x env

/-- Assigning `self.field`. derive/src/definition.rs:949-954. -/
def FVal.setField (self : FVal V) (f : AttrAccess) (x : FVal V) : FVal V :=
  match self with
  | .record fields => .record (Env.set f x fields)
  | v => v

/-- `insert_property`. derive/src/node.rs:710-750. -/
def insertPropertyArms (name : Spanned Str S) (value : Value S) :
    List (Prop' E S V) → FVal V → D E S (Bool × FVal V)
  | [], self => pure (false, self)
  | p :: ps, self =>
    if p.flatten then do
      let r ← p.impls.part.insertProperty (self.field p.field) name value
      if r.1 then pure (true, self.setField p.field r.2)
      else insertPropertyArms name value ps (self.setField p.field r.2)
    else if name.value = p.name then do
      let x ← decodeValue p.decode p.option p.impls value
      pure (true, self.setField p.field (if p.option then x else .some x))
    else insertPropertyArms name value ps self

/-- `insert_child`. derive/src/node.rs:658-708.  `#dest.push` on the `Option`
field of a partial `children(name)` does not type-check in Rust, so
`ChildMode.multi` is not reachable here; it is treated as in the text of the
generated code. -/
def insertChildArms (node : SpannedNode S) :
    List (Child E S V) → FVal V → D E S (Bool × FVal V)
  | [], self => pure (false, self)
  | c :: cs, self =>
    if c.mode = .flatten then do
      let r ← c.impls.part.insertChild (self.field c.field) node
      if r.1 then pure (true, self.setField c.field r.2)
      else insertChildArms node cs (self.setField c.field r.2)
    else if node.value.nodeName.value = c.name then
      if c.mode = .bool then do
        checkFlagNode node
        match self.field c.field with
        | .bool true => do
          D.emit (duplicateNode c node)
          pure (true, self)
        | _ => pure (true, self.setField c.field (.bool true))
      else do
        if (self.field c.field).isSome then D.emit (duplicateNode c node)
        let v ← c.decoder node
        if c.mode = .multi then pure (true, self.setField c.field ((self.field c.field).push v))
        else pure (true, self.setField c.field (.some v))
    else insertChildArms node cs self

/-- The derived `DecodePartial` of a struct. derive/src/node.rs:85-113. -/
def Struct.part (s : Struct E S V) : Partial E S (FVal V) where
  insertChild self node := insertChildArms node s.children self
  insertProperty self name value := insertPropertyArms name value s.properties self

/-- Does the node have arguments, properties or a children block?
derive/src/node.rs:168-170, derive/src/variants.rs:104-106. -/
def nonEmptyNode (node : SpannedNode S) : Bool :=
  !node.value.arguments.isEmpty || !node.value.properties.isEmpty || node.value.children.isSome

/-- The derived decoder of a newtype struct around an `Option`.
derive/src/node.rs:156-181.  (For other newtypes the generated code does not
type-check.) -/
def newTypeNode (inner : NodeDecoder E S (FVal V)) : NodeDecoder E S (FVal V) := fun node =>
  if nonEmptyNode node then do
    let v ← inner node
    pure (.record [(.indexed 0, .some v)])
  else pure (.record [(.indexed 0, .none)])

/-- derive/src/definition.rs:25-30.  `Named` variants are not supported by the
generator (`todo!()`, derive/src/variants.rs:131). -/
inductive VariantKind (E S V : Type) where
  | unit
  | nested (option : Bool) (inner : NodeDecoder E S (FVal V))
  | tuple (s : Struct E S V)

/-- derive/src/definition.rs:219-223. -/
structure Variant (E S V : Type) where
  ident : Str
  name : Str
  kind : VariantKind E S V

/-- The arm of one variant. derive/src/variants.rs:64-131; the checks of a unit
variant are the text of `check_flag_node`.  `decode_enum_item` is
derive/src/node.rs:183-218. -/
def Variant.arm (v : Variant E S V) : NodeDecoder E S (FVal V) := fun node =>
  match v.kind with
  | .unit => do
    checkFlagNode node
    pure (.variant v.ident (.record []))
  | .nested false inner => do
    let x ← inner node
    pure (.variant v.ident x)
  | .nested true inner =>
    if nonEmptyNode node then do
      let x ← inner node
      pure (.variant v.ident (.some x))
    else pure (.variant v.ident .none)
  | .tuple s => do
    let env ← decodeContent s node
    pure (.variant v.ident (.record (env ++ assignExtra s)))

/-- The message for an unknown variant. derive/src/variants.rs:135-146,
derive/src/scalar.rs:79-90. -/
def variantError (names : List Str) : Str :=
  if names.length ≤ 3 then
    "expected one of ".toList ++
      List.intercalate ", ".toList (names.map fun n => "`".toList ++ escapeDefault n ++ "`".toList)
  else
    "expected `".toList ++ escapeDefault (names.getD 0 []) ++ "`, `".toList ++
      escapeDefault (names.getD 1 []) ++ "`, or one of ".toList ++
      (Nat.toDigits 10 (names.length - 2)) ++ " others".toList

/-- The `match` over variant names. derive/src/variants.rs:60-158. -/
def enumArms (names : List Str) (node : SpannedNode S) : List (Variant E S V) → D E S (FVal V)
  | [] => D.fail (DErr.conv node.value.nodeName (.text (variantError names)))
  | v :: vs => if node.value.nodeName.value = v.name then v.arm node else enumArms names node vs

/-- The derived decoder of an enum. derive/src/variants.rs:41-54. -/
def enumNode (variants : List (Variant E S V)) : NodeDecoder E S (FVal V) := fun node =>
  enumArms (variants.map (·.name)) node variants

/-- A variant of a scalar enum. derive/src/scalar.rs:17-20. -/
structure ScalarVariant where
  ident : Str
  name : Str
deriving DecidableEq, Repr

/-- The derived `DecodeScalar` of an enum of unit variants.
derive/src/scalar.rs:77-141; `rustType` is the name of the type. -/
def enumScalar (rustType : Str) (variants : List ScalarVariant) : Scalar E S (FVal V) :=
  Scalar.provided
    (fun tn =>
      match tn with
      | some typ => D.emit (.typeName typ.span (some typ.value) ExpectedType.none rustType)
      | none => pure ())
    fun val =>
      match val.value with
      | .string s =>
        match variants.find? (fun v => s = v.name) with
        | some v => pure (.variant v.ident (.record []))
        | none => D.fail (DErr.conv val (.text (variantError (variants.map (·.name)))))
      | _ => D.fail (DErr.kind .string val)

/-- The value of a variable of the generated code. Used for derive/src/node.rs:594-606. -/
def Env.get (env : Env V) (f : AttrAccess) : FVal V := FVal.field f (.record env)

/-- The closure of `unwrap_fn`: decodes the content of the node and returns the
only field. derive/src/node.rs:594-606. -/
def unwrapNode (s : Struct E S V) (f : AttrAccess) : NodeDecoder E S (FVal V) := fun node => do
  let env ← decodeContent s node
  pure (env.get f)

/-! ## Classification of the fields -/

/-- `tmp_name`. derive/src/definition.rs:926-948. -/
def AttrAccess.tmpName : AttrAccess → Str
  | .indexed i => "field".toList ++ Nat.toDigits 10 i
  | .named n => n

/-- `no_decode`. derive/src/definition.rs:736-750. -/
def PlainAttrs.noDecode (a : PlainAttrs E S V) : Except Str Unit :=
  match a.decode with
  | some _ => .error "decode modes are not supported".toList
  | none => .ok ()

/-- A field declared after a field that captures everything. derive/src/definition.rs:249-255. -/
def errPair {α : Type} (prev : Option α) (message : String) : Except Str Unit :=
  match prev with
  | some _ => .error message.toList
  | none => .ok ()

/-- The body of `add_field`. derive/src/definition.rs:402-587.  `hasUnwrap` says
whether there is an `unwrap`, and `decoder` is then its closure. -/
def addFieldWith (b : Struct E S V) (field : AttrAccess) (isOption isBool : Bool)
    (a : PlainAttrs E S V) (hasUnwrap : Bool) (decoder : Except Str (NodeDecoder E S (FVal V))) :
    Except Str (Struct E S V) := do
  let dec := a.decode.getD .normal
  match a.mode with
  | some .argument => do
    errPair b.varArgs "extra `argument` after capture all `arguments`"
    pure { b with arguments := b.arguments ++ [⟨field, isOption, dec, a.defaultVal, a.impls⟩] }
  | some .arguments => do
    errPair b.varArgs "only single `arguments` allowed"
    pure { b with varArgs := some ⟨field, dec, a.impls⟩ }
  | some (.property name) => do
    errPair b.varProps "extra `property` after capture all `properties`"
    let n ← match name, field with
      | some n, _ => Except.ok n
      | none, .named n => .ok (Externals.kebab n)
      | none, .indexed _ => .error "property must be named".toList
    pure { b with properties := b.properties ++ [⟨field, n, isOption, dec, false, a.defaultVal, a.impls⟩] }
  | some .properties => do
    errPair b.varProps "only single `properties` is allowed"
    pure { b with varProps := some ⟨field, dec, a.impls⟩ }
  | some .child => do
    a.noDecode
    errPair b.varChildren "extra `child` after capture all `children`"
    let n ← match field with
      | .named n => Except.ok (Externals.kebab n)
      | .indexed _ => .error "`child` is not allowed for tuple structs".toList
    let d ← decoder
    pure { b with children := b.children ++
      [⟨field, n, isOption, if !hasUnwrap && isBool then .bool else .normal, a.defaultVal, d, a.impls⟩] }
  | some (.children (some name)) => do
    a.noDecode
    errPair b.varChildren "extra `children(name=` after capture all `children`"
    let d ← decoder
    pure { b with children := b.children ++ [⟨field, name, isOption, .multi, a.defaultVal, d, a.impls⟩] }
  | some (.children none) => do
    a.noDecode
    errPair b.varChildren "only single catch all `children` is allowed"
    let d ← decoder
    pure { b with varChildren := some ⟨field, d⟩ }
  | some (.flatten child property) => do
    if isOption then .error "optional flatten fields are not supported yet".toList
    a.noDecode
    let b ← if property then do
        errPair b.varProps "extra `flatten(property)` after capture all `properties`"
        pure { b with properties := b.properties ++ [⟨field, [], isOption, .normal, true, none, a.impls⟩] }
      else pure b
    if child then do
      errPair b.varChildren "extra `flatten(child)` after capture all `children`"
      pure { b with children := b.children ++ [⟨field, [], isOption, .flatten, none, a.impls.node, a.impls⟩] }
    else pure b
  | some .span => do
    a.noDecode
    pure { b with spans := b.spans ++ [⟨field, a.impls⟩] }
  | some .nodeName => do
    a.noDecode
    pure { b with nodeNames := b.nodeNames ++ [⟨field, a.impls⟩] }
  | some .typeName => do
    a.noDecode
    pure { b with typeNames := b.typeNames ++ [⟨field, isOption, a.impls⟩] }
  | none => pure { b with extraFields := b.extraFields ++ [⟨field, isOption, a.impls⟩] }

mutual
/-- `StructBuilder::add_field`. derive/src/definition.rs:398-588. An error is a
compile error of the program that uses the derive. -/
def addField (b : Struct E S V) (field : AttrAccess) (isOption isBool : Bool) :
    FieldAttrs E S V → Except Str (Struct E S V)
  | .plain a => addFieldWith b field isOption isBool a false (.ok a.impls.node)
  | .unwrapped a inner =>
    addFieldWith b field isOption isBool a true (unwrapFn (.named field.tmpName) inner)
/-- `unwrap_fn`. derive/src/node.rs:569-607.  Fields that are not made from
arguments, properties or children do not exist in the closure: the generated
code does not compile. -/
def unwrapFn (field : AttrAccess) : FieldAttrs E S V → Except Str (NodeDecoder E S (FVal V))
  | .plain a =>
    match a.mode with
    | none | some .span | some .nodeName | some .typeName => .error "cannot find value".toList
    | some _ => do
      let s ← addFieldWith {} field false false a false (.ok a.impls.node)
      pure (unwrapNode s field)
  | .unwrapped a inner =>
    match a.mode with
    | none | some .span | some .nodeName | some .typeName => .error "cannot find value".toList
    | some _ => do
      let s ← addFieldWith {} field false false a true (unwrapFn (.named field.tmpName) inner)
      pure (unwrapNode s field)
end

/-- One field of the struct definition: how it is accessed, whether its type is
written `Option<..>` or `bool`, and its attributes. derive/src/definition.rs:597-602. -/
structure FieldDef (E S V : Type) where
  field : AttrAccess
  isOption : Bool
  isBool : Bool
  attrs : FieldAttrs E S V

/-- `Struct::new`. derive/src/definition.rs:592-605. -/
def Struct.new (fields : List (FieldDef E S V)) : Except Str (Struct E S V) :=
  fields.foldlM (fun b f => addField b f.field f.isOption f.isBool f.attrs) {}

/-- The fields of a variant: none, in parentheses, or in braces. Used for derive/src/definition.rs:311-342. -/
inductive VariantFields (E S V : Type) where
  | unit
  | unnamed (fields : List (FieldDef E S V))
  | named (fields : List (FieldDef E S V))

/-- One variant of the enum definition; `skip` is its only attribute.
derive/src/definition.rs:305-310. -/
structure VariantDef (E S V : Type) where
  ident : Str
  skip : Bool
  fields : VariantFields E S V

/-- The kind of a variant. derive/src/definition.rs:311-342.  The decoder of a
`Nested` variant is the `Decode` of the type of the field (for an `Option`, of
the type inside).  For fields in braces the code generator stops at `todo!()`
(derive/src/variants.rs:131), that is, the program does not compile. -/
def VariantFields.kind : VariantFields E S V → Except Str (VariantKind E S V)
  | .unit => .ok .unit
  | .named _ => .error "not yet implemented".toList
  | .unnamed fields => do
    let tup ← Struct.new fields
    match tup.allFields, tup.extraFields with
    | [_], [f] => pure (.nested f.option f.impls.node)
    | _, _ => pure (.tuple tup)

/-- `Enum::new` with `Variant::new`. derive/src/definition.rs:277-288, 304-345. -/
def enumVariants : List (VariantDef E S V) → Except Str (List (Variant E S V))
  | [] => .ok []
  | d :: ds =>
    if d.skip then enumVariants ds
    else do
      let kind ← d.fields.kind
      let vs ← enumVariants ds
      pure (⟨d.ident, Externals.kebab d.ident, kind⟩ :: vs)

/-- `Enum::new` of scalar enums, whose variants have no fields.
derive/src/scalar.rs:22-47. -/
def scalarVariants (idents : List Str) : List ScalarVariant :=
  idents.map fun i => ⟨i, Externals.kebab i⟩

end Generated

end Knuffel
