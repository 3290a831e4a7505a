import Verif.Model.Attrs
import Verif.Model.Containers
import Verif.Model.Convert
import Verif.Model.ConvertAst
import Verif.Model.Display
import Verif.Model.ParseDecode
/-!
# Conformance tests of the derives (tests, not proofs)

The tests of derive/tests/*.rs, run on the model by evaluation: the items as they are written
there, with the text of their attributes, through `Definition.parse`, the derived decoders
and `parse`, to the values and messages that the tests expect.  They validate the transcription
of derive/src and src/decode.rs.
-/

namespace Knuffel.Tests.Derive
open Knuffel

/-! ### The tokens of an attribute -/

/-- A letter, digit or underscore. -/
def inWord (c : Char) : Bool := c.isAlphanum || c = '_'

/-- The tokens of a text, up to a closing parenthesis, and what follows it.  Braces count as one token. -/
def tokens : Nat → List Char → List TT × List Char
  | 0, cs => ([], cs)
  | _, [] => ([], [])
  | n + 1, c :: cs =>
    if c = ' ' then tokens n cs
    else if c = ')' then ([], cs)
    else if c = '(' then
      let (inner, rest) := tokens n cs
      let (ts, rest) := tokens n rest
      (.parens inner :: ts, rest)
    else if c = '{' then
      let (ts, rest) := tokens n ((cs.dropWhile (· ≠ '}')).drop 1)
      (.other 0 :: ts, rest)
    else if c = '"' then
      let (ts, rest) := tokens n ((cs.dropWhile (· ≠ '"')).drop 1)
      (.str (cs.takeWhile (· ≠ '"')) :: ts, rest)
    else if inWord c then
      let (ts, rest) := tokens n (cs.dropWhile inWord)
      (.ident (c :: cs.takeWhile inWord) :: ts, rest)
    else
      let (ts, rest) := tokens n cs
      (.punct c :: ts, rest)

/-- `#[knuffel(..)]`. -/
def attr (s : String) : Attribute := ⟨true, "knuffel".toList, some (tokens (s.length + 1) s.toList).1⟩

/-- Up to the next comma. -/
def toComma (ts : List TT) : List TT × List TT :=
  ts.span fun
    | .punct ',' => false
    | _ => true

/-- Expressions and types are taken as they are. -/
def syn : Syn (List TT) (List TT) := ⟨fun ts => some (toComma ts), fun ts => some (toComma ts)⟩

/-! ### The other crates and the types of fields -/

/-- `heck::ToKebabCase`, as far as it is needed. -/
def kebab (s : Str) : Str :=
  s.zipIdx.flatMap fun (c, i) =>
    if c = '_' then ['-'] else if c.isUpper then (if i = 0 then [] else ['-']) ++ [c.toLower] else [c]

instance : Externals where
  b64 b := if b = utf8 "aGVsbG8=".toList then .ok (utf8 "hello".toList) else .error "Invalid padding".toList
  kebab := kebab

/-- Values of fields that are not made by the derives. -/
inductive L where
  | int (n : Int)
  | text (s : Str)
  | bytes (b : List UInt8)
  | span (s : Sp Nat)
deriving Repr, DecidableEq

abbrev E := Extensions (fun _ => Unit)
abbrev S := Sp Nat
abbrev V := FVal L

/-- The value of an expression in a test. -/
def eval : List TT → V
  | .str s :: _ => .leaf (.text s)
  | [.ident _, .parens (.str s :: _)] => .some (.leaf (.text s))
  | _ => .record [(.named "label".toList, .leaf (.text "prop1".toList))]

/-- A scalar with values of fields. -/
def asField {α : Type} (f : α → V) (d : Scalar E S α) : Scalar E S V where
  typeCheck := d.typeCheck
  rawDecode l := (d.rawDecode l).map f
  decode v := (d.decode v).map f

/-- Nothing implemented. -/
def nothing : Impls E S L where
  scalar := Scalar.provided (fun _ => D.panic) fun _ => D.panic
  node _ := D.panic
  part := ⟨fun _ _ => D.panic, fun _ _ _ => D.panic⟩
  fromStr _ := .error "invalid".toList
  fromBytes b := .ok (.leaf (.bytes b))
  keyFromStr s := .ok (.leaf (.text s))
  span s c := (.leaf (.span s), c)
  default := .none

/-- `Option<T>` of a scalar. -/
def optional (i : Impls E S L) : Impls E S L :=
  { i with
    scalar := asField (fun | none => .none | some x => .some x) (optionScalar i.scalar)
    default := .none }

/-- `String`. -/
def string : Impls E S L :=
  { nothing with
    scalar := asField (fun s => .leaf (.text s)) stringScalar
    fromStr := fun s => .ok (.leaf (.text s))
    default := .leaf (.text []) }

/-- `u64`. -/
def u64 : Impls E S L := { nothing with scalar := asField (fun n => .leaf (.int n)) (intScalar 64 .u64), default := .leaf (.int 0) }
/-- `u32`. -/
def u32 : Impls E S L := { nothing with scalar := asField (fun n => .leaf (.int n)) (intScalar 64 .u32), default := .leaf (.int 0) }
/-- `f64`, where only the text is kept. -/
def f64 : Impls E S L := { nothing with scalar := asField (fun s => .leaf (.text s)) (floatScalar .f64 id []) }
/-- `PathBuf`. -/
def path : Impls E S L := { nothing with scalar := asField (fun s => .leaf (.text s)) pathBufScalar }
/-- `bool`. -/
def bool : Impls E S L := { nothing with scalar := asField .bool boolScalar }
/-- `SocketAddr`, of which two texts are known. -/
def socketAddr : Impls E S L :=
  { nothing with fromStr := fun s => if s = "127.0.0.1:8080".toList then .ok (.leaf (.text s)) else .error "invalid socket address syntax".toList }

/-! ### Items -/

/-- A type that is written with one name. -/
def ty (s : String) : Ty :=
  if s.endsWith ">" then .path false false [(s.toList.takeWhile (· ≠ '<'), true)] else .path false false [(s.toList, false)]

/-- `#[knuffel(a)] name: t`, with the implementations for the type and for what is unwrapped. -/
def field (a name t : String) (i : Impls E S L) (inner : Impls E S L := nothing) : FieldSyn E S L :=
  ⟨some name.toList, ty t, if a = "" then [] else [attr a], fun k => if k = 0 then i else inner⟩

/-- The same without a name. -/
def part (a t : String) (i : Impls E S L) : FieldSyn E S L :=
  ⟨none, ty t, if a = "" then [] else [attr a], fun _ => i⟩

/-- `#[derive(Decode)]`. -/
def derived (item : Item E S L) : NodeDecoder E S V :=
  match Definition.parse syn eval item with
  | .ok d =>
    match d.node with
    | .ok dec => dec
    | .error _ => fun _ => D.panic
  | .error _ => fun _ => D.panic

/-- The struct of an item, for `DecodeChildren` and `DecodePartial`. -/
def structOf (item : Item E S L) : Struct E S L :=
  match Definition.parse syn eval item with
  | .ok (.struct _ s) => s
  | _ => {}

def struct (fs : List (FieldSyn E S L)) : Item E S L := .struct [] (.named fs)

/-- A type that has been derived, as the type of a field. -/
def ofType (item : Item E S L) : Impls E S L := { nothing with node := derived item, part := (structOf item).part }

/-! ### Showing values and running the tests -/

mutual
/-- How a value is shown here. -/
def shown : V → String
  | .leaf (.int n) => toString n
  | .leaf (.text s) => "'" ++ String.ofList s ++ "'"
  | .leaf (.bytes b) => toString (b.map (·.toNat))
  | .leaf (.span s) => toString s.start ++ ".." ++ toString s.stop
  | .none => "None"
  | .some x => "Some(" ++ shown x ++ ")"
  | .bool b => toString b
  | .list xs => "[" ++ shownList xs ++ "]"
  | .pairs xs => "{" ++ shownPairs xs ++ "}"
  | .record fs => "{" ++ shownFields fs ++ "}"
  | .variant n x => String.ofList n ++ shown x
def shownList : List V → String
  | [] => ""
  | x :: xs => shown x ++ ";" ++ shownList xs
def shownPairs : List (V × V) → String
  | [] => ""
  | (x, y) :: xs => shown x ++ "=" ++ shown y ++ ";" ++ shownPairs xs
def shownFields : List (AttrAccess × V) → String
  | [] => ""
  | (.named n, x) :: xs => String.ofList n ++ ":" ++ shown x ++ ";" ++ shownFields xs
  | (.indexed i, x) :: xs => toString i ++ ":" ++ shown x ++ ";" ++ shownFields xs
end

/-- The value, or the messages, one on a line. -/
def result (r : Option (Except (List (AnyErr Nat)) V)) : String :=
  match r with
  | none => "panic"
  | some (.ok v) => shown v
  | some (.error es) => "error: " ++ String.ofList (List.intercalate ['\n'] (es.map fun
      | .parse e => e.text
      | .decode e => e.message))

/-- `parse::<Vec<T>>`. -/
def parse (item : Item E S L) (text : String) : String := result ((parseDecode (vecChildren (derived item)) text.toList).map fun
  | .ok vs => .ok (.list vs)
  | .error es => .error es)

/-- `parse::<T>`. -/
def parseDoc (item : Item E S L) (text : String) : String :=
  if (structOf item).isRoot then result (parseDecode (structOf item).root text.toList) else "not a document"

/-! ### derive/tests/normal.rs -/

def arg1 := struct [field "argument" "name" "String" string]
def argDef := struct [field "argument, default" "name" "String" string]
def argDefValue := struct [field "argument, default=\"unnamed\".into()" "name" "String" string]
def argDefOptValue := struct [field "argument, default=Some(\"unnamed\".into())" "name" "Option<String>" (optional string)]
def optArg := struct [field "argument" "name" "Option<String>" (optional string)]
def extra := struct [field "" "field" "String" string]
def varArg := struct [field "arguments" "params" "Vec<u64>" u64]
def prop1 := struct [field "property" "label" "String" string]
def propDef := struct [field "property, default" "label" "String" string]
def propDefValue := struct [field "property, default=\"unknown\".into()" "label" "String" string]
def propDefOptValue := struct [field "property, default=Some(\"unknown\".into())" "label" "Option<String>" (optional string)]
def propNamed := struct [field "property(name=\"x\")" "label" "String" string]
def optProp := struct [field "property" "label" "Option<String>" (optional string)]
def varProp := struct [field "properties" "scores" "BTreeMap<String, u64>" u64]
def children := struct [field "children" "children" "Vec<Arg1>" (ofType arg1)]
def filteredChildren := struct [field "children(name=\"left\")" "left" "Vec<OptArg>" (ofType optArg),
  field "children(name=\"right\")" "right" "Vec<OptArg>" (ofType optArg)]
def variant : Item E S L := .enum []
  [⟨"Arg1".toList, [], .unnamed [part "" "Arg1" (ofType arg1)]⟩,
   ⟨"Prop1".toList, [], .unnamed [part "" "Prop1" (ofType prop1)]⟩,
   ⟨"Var3".toList, [attr "skip", ⟨true, "allow".toList, some [.ident "dead_code".toList]⟩], .unnamed [part "" "u32" u32]⟩]
def child := struct [field "child" "main" "Prop1" (ofType prop1), field "child" "extra" "Option<Prop1>" (ofType prop1),
  field "child" "flag" "bool" bool, field "child" "унікод" "Option<Prop1>" (ofType prop1)]
def childDef := struct [field "child, default" "main" "Prop1"
  { ofType prop1 with default := .record [(.named "label".toList, .leaf (.text []))] }]
def childDefValue := struct [field "child, default=Prop1 { label: String::from(\"prop1\") }" "main" "Prop1" (ofType prop1)]
def unwrap := struct [field "child, unwrap(argument)" "label" "String" nothing string]
def unwrapFiltChildren := struct [field "children(name=\"labels\"), unwrap(arguments)" "labels" "Vec<Vec<String>>" nothing string]
def unwrapChildren := struct [field "children, unwrap(arguments)" "labels" "Vec<Vec<String>>" nothing string]
def parse' := struct [field "child, unwrap(argument, str)" "listen" "SocketAddr" nothing socketAddr]
def parseOpt := struct [field "property, str" "listen" "Option<SocketAddr>" socketAddr]
def bytes := struct [field "child, unwrap(argument, bytes)" "data" "Vec<u8>" nothing nothing]
def optBytes := struct [field "property, bytes" "data" "Option<Vec<u8>>" nothing]

/-- Fields `r#type`: the identifier is taken without `r#` (`IdentExt::unraw`, derive/src/definition.rs:933-948). -/
def arg1RawIdent := struct [field "argument" "type" "String" string]
def prop1RawIdent := struct [field "property" "type" "String" string]
def unwrapRawIdent := struct [field "child, unwrap(argument)" "type" "String" nothing string]

-- parse_arg1
#guard parse arg1 "node \"hello\"" = "[{name:'hello';};]"
#guard parse arg1 "node \"hello\" \"world\"" = "error: unexpected argument"
#guard parse arg1 "(some)node \"hello\"" = "error: no type name expected for this node"
#guard parse arg1 "node" = "error: additional argument `name` is required"
-- parse_arg1_raw_ident
#guard parse arg1RawIdent "node \"hello\"" = "[{type:'hello';};]"
#guard parse arg1RawIdent "node \"hello\" \"world\"" = "error: unexpected argument"
#guard parse arg1RawIdent "(some)node \"hello\"" = "error: no type name expected for this node"
#guard parse arg1RawIdent "node" = "error: additional argument `type` is required"
-- parse_arg_default
#guard parse argDef "node \"hello\"" = "[{name:'hello';};]"
#guard parse argDef "node \"hello\" \"world\"" = "error: unexpected argument"
#guard parse argDef "node" = "[{name:'';};]"
-- parse_arg_def_value
#guard parse argDefValue "node \"hello\"" = "[{name:'hello';};]"
#guard parse argDefValue "node \"hello\" \"world\"" = "error: unexpected argument"
#guard parse argDefValue "node" = "[{name:'unnamed';};]"
#guard parse argDefOptValue "node \"hello\"" = "[{name:Some('hello');};]"
#guard parse argDefOptValue "node" = "[{name:Some('unnamed');};]"
#guard parse argDefOptValue "node null" = "[{name:None;};]"
-- parse_opt_arg
#guard parse optArg "node \"hello\"" = "[{name:Some('hello');};]"
#guard parse optArg "node" = "[{name:None;};]"
#guard parse optArg "node null" = "[{name:None;};]"
-- parse_prop
#guard parse prop1 "node label=\"hello\"" = "[{label:'hello';};]"
#guard parse prop1 "node label=\"hello\" y=\"world\"" = "error: unexpected property `y`"
#guard parse prop1 "node" = "error: property `label` is required"
-- parse_prop_raw_ident
#guard parse prop1RawIdent "node type=\"hello\"" = "[{type:'hello';};]"
#guard parse prop1RawIdent "node type=\"hello\" y=\"world\"" = "error: unexpected property `y`"
#guard parse prop1RawIdent "node" = "error: property `type` is required"
-- parse_prop_default
#guard parse propDef "node label=\"hello\"" = "[{label:'hello';};]"
#guard parse propDef "node" = "[{label:'';};]"
-- parse_prop_def_value
#guard parse propDefValue "node label=\"hello\"" = "[{label:'hello';};]"
#guard parse propDefValue "node" = "[{label:'unknown';};]"
#guard parse propDefOptValue "node label=\"hello\"" = "[{label:Some('hello');};]"
#guard parse propDefOptValue "node" = "[{label:Some('unknown');};]"
#guard parse propDefOptValue "node label=null" = "[{label:None;};]"
-- parse_prop_named
#guard parse propNamed "node x=\"hello\"" = "[{label:'hello';};]"
#guard parse propNamed "node label=\"hello\" y=\"world\"" = "error: unexpected property `label`"
#guard parse propNamed "node" = "error: property `x` is required"
-- parse_unwrap
#guard parse unwrap "node { label \"hello\"; }" = "[{label:'hello';};]"
#guard parse unwrap "node label=\"hello\"" = "error: unexpected property `label`"
#guard parse unwrap "node" = "error: child node `label` is required"
#guard parseDoc unwrap "label \"hello\"" = "{label:'hello';}"
-- parse_unwrap_raw_ident
#guard parse unwrapRawIdent "node { type \"hello\"; }" = "[{type:'hello';};]"
#guard parse unwrapRawIdent "node type=\"hello\"" = "error: unexpected property `type`"
#guard parse unwrapRawIdent "node" = "error: child node `type` is required"
#guard parseDoc unwrapRawIdent "type \"hello\"" = "{type:'hello';}"
-- parse_unwrap_filtered_children, parse_unwrap_children
#guard parse unwrapFiltChildren "node { labels \"hello\" \"world\"; labels \"oh\" \"my\"; }" = "[{labels:[['hello';'world';];['oh';'my';];];};]"
#guard parse unwrapChildren "node { some \"hello\" \"world\"; other \"oh\" \"my\"; }" = "[{labels:[['hello';'world';];['oh';'my';];];};]"
-- parse_opt_prop
#guard parse optProp "node label=\"hello\"" = "[{label:Some('hello');};]"
#guard parse optProp "node" = "[{label:None;};]"
#guard parse optProp "node label=null" = "[{label:None;};]"
-- parse_var_arg
#guard parse varArg "sum 1 2 3" = "[{params:[1;2;3;];};]"
#guard parse varArg "sum" = "[{params:[];};]"
-- parse_var_prop
#guard parse varProp "scores john=13 jack=7" = "[{scores:{'jack'=7;'john'=13;};};]"
#guard parse varProp "scores" = "[{scores:{};};]"
-- parse_children
#guard parse children "parent { - \"val1\"; - \"val2\"; }" = "[{children:[{name:'val1';};{name:'val2';};];};]"
#guard parse children "parent" = "[{children:[];};]"
#guard parseDoc children "- \"val1\"; - \"val2\"" = "{children:[{name:'val1';};{name:'val2';};];}"
#guard parseDoc children "" = "{children:[];}"
-- parse_filtered_children
#guard parseDoc filteredChildren "left \"v1\"; right \"v2\"; left \"v3\"" =
  "{left:[{name:Some('v1');};{name:Some('v3');};];right:[{name:Some('v2');};];}"
#guard parseDoc filteredChildren "right; left" = "{left:[{name:None;};];right:[{name:None;};];}"
#guard parseDoc filteredChildren "some" = "error: unexpected node `some`"
-- parse_child
#guard parse child "parent { main label=\"val1\"; }" = "[{main:{label:'val1';};extra:None;flag:false;унікод:None;};]"
#guard parse child "parent {
                    main label=\"primary\";
                    extra label=\"replica\";
                 }" = "[{main:{label:'primary';};extra:Some({label:'replica';});flag:false;унікод:None;};]"
#guard parse child "parent { something; }" = "error: unexpected node `something`\nchild node `main` is required"
#guard parse child "parent" = "error: child node `main` is required"
#guard parseDoc child "main label=\"val1\"" = "{main:{label:'val1';};extra:None;flag:false;унікод:None;}"
#guard parseDoc child "
                    main label=\"primary\"
                    extra label=\"replica\"
                    flag
                 " = "{main:{label:'primary';};extra:Some({label:'replica';});flag:true;унікод:None;}"
#guard parseDoc child "something" = "error: unexpected node `something`\nchild node `main` is required"
#guard parseDoc child "" = "error: child node `main` is required"
#guard parseDoc child "
                    main label=\"primary\"
                    унікод label=\"працює\"
                 " = "{main:{label:'primary';};extra:None;flag:false;унікод:Some({label:'працює';});}"
-- parse_child_def, parse_child_def_value
#guard parse childDef "parent { main label=\"val1\"; }" = "[{main:{label:'val1';};};]"
#guard parse childDef "parent" = "[{main:{label:'';};};]"
#guard parse childDefValue "parent { main label=\"val1\"; }" = "[{main:{label:'val1';};};]"
#guard parse childDefValue "parent" = "[{main:{label:'prop1';};};]"
-- parse_enum
#guard parse variant "arg1 \"hello\"" = "[Arg1{name:'hello';};]"
#guard parse variant "prop1 label=\"hello\"" = "[Prop1{label:'hello';};]"
#guard parse variant "something" = "error: expected one of `arg1`, `prop1`"
-- parse_str
#guard parseDoc parse' "listen \"127.0.0.1:8080\"" = "{listen:'127.0.0.1:8080';}"
#guard parseDoc parse' "listen \"2/3\"" = "error: invalid socket address syntax"
#guard parse parseOpt "server listen=\"127.0.0.1:8080\"" = "[{listen:Some('127.0.0.1:8080');};]"
#guard parse parseOpt "server listen=\"2/3\"" = "error: invalid socket address syntax"
#guard parse parseOpt "server listen=null" = "[{listen:None;};]"
-- parse_bytes
#guard parseDoc bytes "data (base64)\"aGVsbG8=\"" = "{data:[104, 101, 108, 108, 111];}"
#guard parseDoc bytes "data \"world\"" = "{data:[119, 111, 114, 108, 100];}"
#guard parseDoc bytes "data (base64)\"2/3\"" = "error: Invalid padding"
#guard parse optBytes "node data=(base64)\"aGVsbG8=\"" = "[{data:Some([104, 101, 108, 108, 111]);};]"
#guard parse optBytes "node data=\"world\"" = "[{data:Some([119, 111, 114, 108, 100]);};]"
#guard parse optBytes "node data=null" = "[{data:None;};]"
-- parse_extra
#guard parse extra "data" = "[{field:'';};]"
#guard parse extra "data x=1" = "error: unexpected property `x`"

/-! ### derive/tests/flatten.rs -/

namespace Flatten

def prop1 := struct [field "property" "label" "Option<String>" (optional string)]
def flatProp := struct [field "flatten(property)" "props" "Prop1"
  { ofType prop1 with default := .record [(.named "label".toList, .none)] }]
def unwrap := struct [field "child, unwrap(argument)" "label" "Option<String>" nothing string]
def flatChild := struct [field "flatten(child)" "children" "Unwrap"
  { ofType unwrap with default := .record [(.named "label".toList, .none)] }]

#guard parse flatProp "node label=\"hello\"" = "[{props:{label:Some('hello');};};]"
#guard parse flatProp "node something=\"world\"" = "error: unexpected property `something`"
#guard parseDoc flatChild "label \"hello\"" = "{children:{label:Some('hello');};}"
#guard parseDoc flatChild "something \"world\"" = "error: unexpected node `something`"

end Flatten

/-! ### derive/tests/extra.rs -/

namespace Extra

def child : Item E S L := .struct [] .unit
def nodeSpan : Item E S L := .struct [attr "span_type=Span"] (.named
  [field "span" "span" "Span" nothing, field "argument" "name" "String" string, field "children" "children" "Vec<Child>" (ofType child)])
def nodeType := struct [field "type_name" "type_name" "String" string]
/-- The `FromStr` of `TypeName` is shown by the variant. -/
def typeName : Impls E S L :=
  { nothing with
    fromStr := fun s => match TypeName.fromString s with
      | .builtin b => .ok (.variant "builtin ".toList (.leaf (.text b.asStr)))
      | .custom s => .ok (.leaf (.text s)) }
def nameAndType := struct [field "node_name" "node_name" "String" string, field "type_name" "type_name" "Option<TypeName>" typeName]

#guard parse nodeSpan "node \"hello\"" = "[{span:0..12;name:'hello';children:[];};]"
#guard parse nodeSpan "   node  \"hello\"     " = "[{span:3..21;name:'hello';children:[];};]"
#guard parse nodeSpan "   node  \"hello\";     " = "[{span:3..17;name:'hello';children:[];};]"
#guard parse nodeSpan "   node  \"hello\"     {   child;   }" = "[{span:3..35;name:'hello';children:[{};];};]"
#guard parse nodeType "(unknown)node {}" = "[{type_name:'unknown';};]"
#guard parse nameAndType "(u32)nodexxx" = "[{node_name:'nodexxx';type_name:Some(builtin 'u32');};]"
#guard parse nameAndType "yyynode /-{   }" = "[{node_name:'yyynode';type_name:None;};]"

end Extra

/-! ### derive/tests/types.rs, derive/tests/ast.rs -/

def scalars := struct [field "child, unwrap(argument)" "str" "String" nothing string,
  field "child, unwrap(argument)" "u64" "u64" nothing u64, field "child, unwrap(argument)" "f64" "f64" nothing f64,
  field "child, unwrap(argument)" "path" "PathBuf" nothing path, field "child, unwrap(argument)" "boolean" "bool" nothing bool]

#guard parseDoc scalars "
            str \"hello\"
            u64 1234
            f64 16.125e+1
            path \"/hello/world\"
            boolean true
        " = "{str:'hello';u64:1234;f64:'16.125e+1';path:'/hello/world';boolean:true;}"

def astChildren := struct [field "children" "children" "Vec<SpannedNode<Span>>"
  { nothing with node := fun n => (astSpannedDecoder SpanDecoder.same n).map fun m => .leaf (.text m.value.nodeName.value) }]

#guard parse astChildren "node {a; b;}" = "[{children:['a';'b';];};]"

/-! ### derive/tests/scalar.rs -/

/-- `#[derive(DecodeScalar)] enum SomeScalar { First, AnotherOption }`. -/
def someScalar : Impls E S L :=
  match scalarParse (E := E) (S := S) (V := L) (.enum [] [⟨"First".toList, [], .unit⟩, ⟨"AnotherOption".toList, [], .unit⟩]) with
  | .ok vs => { nothing with scalar := enumScalar "SomeScalar".toList vs }
  | .error _ => nothing

def item := struct [field "argument" "value" "SomeScalar" someScalar]

#guard parse item "node \"first\"" = "[{value:First{};};]"
#guard parse item "node \"another-option\"" = "[{value:AnotherOption{};};]"
#guard parse item "node \"test\"" = "error: expected one of `first`, `another-option`"

/-! ### derive/tests/tuples.rs -/

namespace Tuples

def unit : Item E S L := .struct [] .unit
def arg : Item E S L := .struct [] (.unnamed [part "argument" "u32" u32])
def opt : Item E S L := .struct [] (.unnamed [part "" "Option<Arg>" (ofType arg)])
def extra : Item E S L := .struct [] (.unnamed [part "argument" "Option<String>" (optional string), part "" "u32" u32])
def enum : Item E S L := .enum []
  [⟨"Unit".toList, [], .unit⟩, ⟨"Arg".toList, [], .unnamed [part "argument" "u32" u32]⟩,
   ⟨"Opt".toList, [], .unnamed [part "" "Option<Arg>" (ofType arg)]⟩,
   ⟨"Extra".toList, [], .unnamed [part "argument" "Option<String>" (optional string), part "" "u32" u32]⟩]

-- parse_unit
#guard parse unit "node" = "[{};]"
#guard parse unit "node something=\"world\"" = "error: unexpected property `something`"
-- parse_arg
#guard parse arg "node 123" = "[{0:123;};]"
#guard parse arg "node something=\"world\"" = "error: additional argument is required"
-- parse_extra
#guard parse extra "node \"123\"" = "[{0:Some('123');1:0;};]"
#guard parse extra "node" = "[{0:None;1:0;};]"
#guard parse extra "node \"123\" 456" = "error: unexpected argument"
-- parse_opt
#guard parse opt "node 123" = "[{0:Some({0:123;});};]"
#guard parse opt "node" = "[{0:None;};]"
#guard parse opt "node something=\"world\"" = "error: additional argument is required"
-- parse_enum
#guard parse enum "unit" = "[Unit{};]"
#guard parse enum "arg 123" = "[Arg{0:123;};]"
#guard parse enum "opt 123" = "[OptSome({0:123;});]"
#guard parse enum "opt" = "[OptNone;]"
#guard parse enum "extra" = "[Extra{0:None;1:0;};]"
#guard parse enum "unit something=\"world\"" = "error: unexpected property `something`"
#guard parse enum "other something=\"world\"" = "error: expected `unit`, `arg`, or one of 2 others"
#guard parse enum "extra \"hello\" \"world\"" = "error: unexpected argument"

end Tuples

/-! ### README.md and derive/derive_decode.md -/

namespace Docs

-- README.md:38-91.  `Route` contains itself, so that its decoder is made for some levels.
def route : Nat → Item E S L
  | 0 => struct []
  | n + 1 => struct [field "argument" "path" "String" string, field "children(name=\"route\")" "subroutes" "Vec<Route>" (ofType (route n))]
def plugin := struct [field "argument" "name" "String" string, field "property" "url" "String" string]
def topLevel : Item E S L := .enum [] [⟨"Route".toList, [], .unnamed [part "" "Route" (ofType (route 3))]⟩,
  ⟨"Plugin".toList, [], .unnamed [part "" "Plugin" (ofType plugin)]⟩]
def document := struct [field "child, unwrap(argument)" "version" "Option<String>" nothing string,
  field "children(name=\"route\")" "routes" "Vec<Route>" (ofType (route 3)),
  field "children(name=\"plugin\")" "plugins" "Vec<Plugin>" (ofType plugin)]
def text := "
    route \"/api\" {
        route \"/api/v1\"
    }
    plugin \"http\" url=\"https://example.org/http\"
"
#guard parse topLevel text = "[Route{path:'/api';subroutes:[{path:'/api/v1';subroutes:[];};];};Plugin{name:'http';url:'https://example.org/http';};]"
#guard parseDoc document ("version \"2.0\"" ++ text) =
  "{version:Some('2.0');routes:[{path:'/api';subroutes:[{path:'/api/v1';subroutes:[];};];};];plugins:[{name:'http';url:'https://example.org/http';};];}"

-- Arguments.  Only `Option` written in this way is recognised.
def arguments := struct [field "argument" "first" "String" string, field "argument" "second" "bool" bool, field "arguments" "numbers" "Vec<u32>" u32]
#guard parse arguments "node \"arg1\" true 1 22 333" = "[{first:'arg1';second:true;numbers:[1;22;333;];};]"
def optionals := struct [field "argument" "first" "Option<String>" (optional string), field "argument" "second" "Option<bool>" (optional bool)]
#guard parse optionals "node \"arg1\"  // no `second` argument is okay" = "[{first:Some('arg1');second:None;};]"
#guard parse optionals "node null null" = "[{first:None;second:None;};]"
def alias := struct [field "argument" "first" "Opt<String>" (optional string)]
#guard parse alias "node" = "error: additional argument `first` is required"
#guard parse alias "node null" = "[{first:None;};]"

-- Properties.
def properties := struct [field "property" "name" "String" string, field "property" "enabled" "bool" bool, field "properties" "numbers" "HashMap<String, u32>" u32]
#guard parse properties "node name=\"arg1\" enabled=true a=1 b=2 c=3" = "[{name:'arg1';enabled:true;numbers:{'a'=1;'b'=2;'c'=3;};};]"
#guard parse (struct [field "property" "plugin_name" "String" string]) "node plugin-name=\"my_plugin\"" = "[{plugin_name:'my_plugin';};]"
#guard parse (struct [field "property(name=\"pluginName\")" "name" "String" string]) "node pluginName=\"x\"" = "[{name:'x';};]"

-- Children.
def setting : Item E S L := .enum [] [⟨"Plugin".toList, [], .unnamed [part "argument" "String" string]⟩,
  ⟨"Datum".toList, [], .unnamed [part "argument" "String" string]⟩]
def version := struct [field "argument" "number" "u32" u32]
def myNode := struct [field "child" "version" "Version" (ofType version), field "children" "settings" "Vec<Setting>" (ofType setting)]
#guard parse myNode "node {
    version 1
    plugin \"xxx\"
    datum \"yyy\"
}" = "[{version:{number:1;};settings:[Plugin{0:'xxx';};Datum{0:'yyy';};];};]"
def autoStart := struct [field "argument" "name" "String" string, field "child" "auto_start" "bool" bool]
#guard parse autoStart "plugin \"first\" {
    auto-start
}
plugin \"second\"" = "[{name:'first';auto_start:true;};{name:'second';auto_start:false;};]"
def grouped := struct [field "child, unwrap(children(name=\"plugin\"))" "plugins" "Vec<Plugin>" nothing (ofType arg1),
  field "child, unwrap(children(name=\"file\"))" "files" "Vec<File>" nothing (ofType arg1)]
#guard parseDoc grouped "plugins {
    plugin \"a\"
    plugin \"b\"
}
files {
    file \"aa\"
    file \"bb\"
}" = "{plugins:[{name:'a';};{name:'b';};];files:[{name:'aa';};{name:'bb';};];}"
#guard parseDoc (struct [field "property" "version" "u32" u32]) "" = "not a document"

-- Flatten.
def common := struct [field "child, unwrap(argument)" "name" "Option<String>" nothing string,
  field "child, unwrap(argument)" "description" "Option<String>" nothing string]
def flat := struct [field "flatten(child)" "common" "Common"
    { ofType common with default := .record [(.named "name".toList, .none), (.named "description".toList, .none)] },
  field "child, unwrap(argument)" "url" "String" nothing string]
#guard parse flat "plugin {
    name \"my-plugin\"
    description \"Some example plugin\"
    url \"https://example.org/plugin\"
}" = "[{common:{name:Some('my-plugin');description:Some('Some example plugin');};url:'https://example.org/plugin';};]"

-- Enums.
def action : Item E S L := .enum []
  [⟨"Create".toList, [], .unnamed [part "argument" "String" string]⟩,
   ⟨"PrintString".toList, [], .unnamed [part "" "PrintString" (ofType (struct [field "argument" "s" "String" string, field "property" "line" "u32" u32]))]⟩,
   ⟨"Finish".toList, [], .unit⟩, ⟨"InternalAction".toList, [attr "skip"], .unit⟩]
#guard parse action "create \"xxx\"
print-string \"yyy\" line=2
finish" = "[Create{0:'xxx';};PrintString{s:'yyy';line:2;};Finish{};]"
#guard parse action "internal-action" = "error: expected one of `create`, `print-string`, `finish`"

end Docs

end Knuffel.Tests.Derive
