import Verif.Model.Wrappers
/-!
# Conformance tests (tests, not proofs)

All grammar tests of src/grammar.rs:597-1438, run on the model by evaluation.
They validate the transcription of the grammar and of chumsky's combinators,
including the expected errors with their spans.
-/

namespace Knuffel.Tests

/-- `parse(p.then_ignore(end()), text)` as in src/grammar.rs:620-639. -/
def run {α : Type} (p : P Nat α) (text : String) : Option (Except (List (PErr Nat)) α) :=
  runParser (thenIgnore p endP) (offsetEoi text.toList) (offsetToks 0 text.toList)

def ok {α : Type} (p : P Nat α) (text : String) : Bool :=
  match run p text with
  | some (.ok _) => true
  | _ => false

def err {α : Type} (p : P Nat α) (text : String) : Bool :=
  match run p text with
  | some (.error _) => true
  | _ => false

def val {α : Type} (p : P Nat α) (text : String) : Option α :=
  match run p text with
  | some (.ok a) => some a
  | _ => none

def errs {α : Type} (p : P Nat α) (text : String) : Option (List (PErr Nat)) :=
  match run p text with
  | some (.error e) => some e
  | _ => none

def unclosed (label : String) (o1 len1 : Nat) (opened : TokenFormat) (o2 len2 : Nat) (expected : TokenFormat) : PErr Nat :=
  .unclosed label.toList ⟨o1, o1 + len1⟩ opened ⟨o2, o2 + len2⟩ expected .eoi

def unexp (label : Option String) (o len : Nat) (found : TokenFormat) (expected : List TokenFormat) : PErr Nat :=
  .unexpected (label.map (·.toList)) ⟨o, o + len⟩ found expected

-- parse_ws
#guard ok ws "   "
#guard err ws "text"
-- parse_comments
#guard ok comment "//hello"
#guard ok comment "//hello\n"
#guard ok mlComment "/*nothing*/"
#guard ok mlComment "/*nothing**/"
#guard ok mlComment "/*no*thing*/"
#guard ok mlComment "/*no/**/thing*/"
#guard ok mlComment "/*no/*/**/*/thing*/"
#guard ok (seq ws comment) "   // hello"
#guard ok (seq (seq (seq ws comment) ws) comment) "   // hello\n   //world"
-- parse_comment_err
#guard errs ws "/* comment" = some [unclosed "comment" 0 2 (.token "/*".toList) 10 0 (.token "*/".toList)]
#guard errs ws "/* com/*ment *" = some [unclosed "comment" 0 2 (.token "/*".toList) 14 0 (.token "*/".toList)]
#guard errs ws "/* com/*me*/nt *" = some [unclosed "comment" 0 2 (.token "/*".toList) 16 0 (.token "*/".toList)]
#guard errs ws "/* comment *" = some [unclosed "comment" 0 2 (.token "/*".toList) 12 0 (.token "*/".toList)]
#guard errs ws "/*/" = some [unclosed "comment" 0 2 (.token "/*".toList) 3 0 (.token "*/".toList)]
#guard errs ws "xxx" = some [unexp none 0 1 (.char 'x') [.kind "whitespace".toList]]
-- parse_str
#guard val string "\"hello\"" = some "hello".toList
#guard val string "\"\"" = some []
#guard val string "\"hel\\\"lo\"" = some "hel\"lo".toList
#guard val string "\"hello\\nworld!\"" = some "hello\nworld!".toList
#guard val string "\"\\u{1F680}\"" = some "🚀".toList
-- parse_raw_str
#guard val string "r\"hello\"" = some "hello".toList
#guard val string "r#\"world\"#" = some "world".toList
#guard val string "r###\"a\\n\"##b\"###" = some "a\\n\"##b".toList
-- parse_str_err
#guard errs string "\"hello" = some [unclosed "string" 0 1 (.char '"') 6 0 (.char '"')]
#guard errs string "\"he\\u{FFFFFF}llo\"" =
  some [.message (some "invalid character code".toList) ⟨5, 13⟩ "converted integer out of range for `char`".toList]
#guard errs string "\"he\\u{1234567}llo\"" = some [unexp none 12 1 (.char '7') [.char '}']]
#guard errs string "\"he\\u{1gh}llo\"" =
  some [unexp none 7 1 (.char 'g') [.char '}', .kind "hexadecimal digit".toList]]
#guard errs string "\"he\\x01llo\"" =
  some [unexp (some "invalid escape char") 4 1 (.char 'x') ("\"/\\bfnrtu".toList.map .char)]
#guard errs string "\"he\\u{FFFFFF}l\\!lo\"" =
  some [.message (some "invalid character code".toList) ⟨5, 13⟩ "converted integer out of range for `char`".toList,
    unexp (some "invalid escape char") 15 1 (.char '!') ("\"/\\bfnrtu".toList.map .char)]
-- parse_raw_str_err
#guard errs string "r\"hello" = some [unclosed "raw string" 0 2 (.openRaw 0) 7 0 (.closeRaw 0)]
#guard errs string "r#\"hello\"" = some [unclosed "raw string" 0 3 (.openRaw 1) 9 0 (.closeRaw 1)]
#guard errs string "r###\"hello" = some [unclosed "raw string" 0 5 (.openRaw 3) 10 0 (.closeRaw 3)]
#guard errs string "r###\"hello\"#world" = some [unclosed "raw string" 0 5 (.openRaw 3) 17 0 (.closeRaw 3)]
-- parse_ident
#guard val ident "abcdef" = some "abcdef".toList
#guard val ident "xx_cd$yy" = some "xx_cd$yy".toList
#guard val ident "-" = some "-".toList
#guard val ident "--hello" = some "--hello".toList
#guard val ident "--hello1234" = some "--hello1234".toList
#guard val ident "--1" = some "--1".toList
#guard val ident "++1" = some "++1".toList
#guard val ident "-hello" = some "-hello".toList
#guard val ident "+hello" = some "+hello".toList
#guard val ident "-A" = some "-A".toList
#guard val ident "+b" = some "+b".toList
#guard val (thenIgnore ident ws) "adef   " = some "adef".toList
#guard val (thenIgnore ident ws) "a123@   " = some "a123@".toList
#guard err ident "1abc"
#guard err ident "-1"
#guard err ident "-1test"
#guard err ident "+1"
-- parse_literal
#guard val literal "true" = some (.bool true)
#guard val literal "false" = some (.bool false)
#guard val literal "null" = some .null
-- exclude_keywords
#guard ok nodes "item true"
#guard errs nodes "true \"item\"" =
  some [unexp (some "keyword") 0 4 (.token "true".toList) [.kind "identifier".toList]]
#guard errs nodes "item false=true" =
  some [unexp (some "unexpected keyword") 5 5 (.kind "keyword".toList)
    [.kind "identifier".toList, .kind "string".toList]]
#guard errs nodes "item 2=2" =
  some [.messageWithHelp (some "unexpected number".toList) ⟨5, 6⟩
    "numbers cannot be used as property names".toList
    "consider enclosing in double quotes \"..\"".toList]
-- parse_type
#guard val typeName "(abcdef)" = some (.fromString "abcdef".toList)
#guard val typeName "(xx_cd$yy)" = some (.fromString "xx_cd$yy".toList)
#guard err typeName "(1abc)"
#guard err typeName "( abc)"
#guard err typeName "(abc )"
-- parse_type_err
#guard errs typeName "(123)" =
  some [unexp (some "unexpected number") 1 3 (.kind "number".toList) [.kind "identifier".toList]]
#guard errs typeName "(-1)" =
  some [unexp (some "unexpected number") 1 2 (.kind "number".toList) [.kind "identifier".toList]]

/-- A property: name, type, literal. -/
structure Pr where
  (name : String) (ty : Option String) (lit : Literal)
deriving DecidableEq, Repr
/-- name, type, arguments, properties, names of children -/
structure Sh where
  (name : String) (ty : Option String) (args : List Literal) (props : List Pr) (children : List String)
deriving DecidableEq, Repr
def shape (text : String) : Option (List Sh) :=
  (val nodes text).map (·.map (fun n =>
    (.mk (.ofList n.value.nodeName.value) (n.value.typeName.map (fun t => .ofList t.value.asStr))
     (n.value.arguments.map (·.literal.value))
     (n.value.properties.map (fun p => .mk (.ofList p.1.value) (p.2.typeName.map (fun t => .ofList t.value.asStr)) p.2.literal.value))
     (n.value.childNodes.map (fun c => .ofList c.value.nodeName.value)))))

-- parse_node
#guard shape "hello" = some [⟨"hello", none, [], [], []⟩]
#guard shape "\"123\"" = some [⟨"123", none, [], [], []⟩]
#guard shape "(typ)other" = some [⟨"other", some "typ", [], [], []⟩]
#guard shape "(\"std::duration\")\"timeout\"" = some [⟨"timeout", some "std::duration", [], [], []⟩]
#guard shape "hello \"arg1\"" = some [⟨"hello", none, [.string "arg1".toList], [], []⟩]
#guard shape "node \"true\"" = some [⟨"node", none, [.string "true".toList], [], []⟩]
#guard shape "hello (string)\"arg1\"" = some [⟨"hello", none, [.string "arg1".toList], [], []⟩]
#guard shape "hello key=(string)\"arg1\"" =
  some [⟨"hello", none, [], [⟨"key", some "string", .string "arg1".toList⟩], []⟩]
#guard shape "hello key=\"arg1\"" = some [⟨"hello", none, [], [⟨"key", none, .string "arg1".toList⟩], []⟩]
#guard shape "parent {\nchild\n}" = some [⟨"parent", none, [], [], ["child"]⟩]
#guard shape "parent {\nchild1\nchild2\n}" = some [⟨"parent", none, [], [], ["child1", "child2"]⟩]
#guard shape "parent{\nchild3\n}" = some [⟨"parent", none, [], [], ["child3"]⟩]
#guard shape "parent \"x\"=1 {\nchild4\n}" =
  some [⟨"parent", none, [], [⟨"x", none, .int .dec "1".toList⟩], ["child4"]⟩]
#guard shape "parent \"x\" {\nchild4\n}" = some [⟨"parent", none, [.string "x".toList], [], ["child4"]⟩]
#guard shape "parent \"x\"{\nchild5\n}" = some [⟨"parent", none, [.string "x".toList], [], ["child5"]⟩]
#guard shape "hello /-\"skip_arg\" \"arg2\"" = some [⟨"hello", none, [.string "arg2".toList], [], []⟩]
#guard shape "hello /- \"skip_arg\" \"arg2\"" = some [⟨"hello", none, [.string "arg2".toList], [], []⟩]
#guard shape "hello prop1=\"1\" /-prop1=\"2\"" =
  some [⟨"hello", none, [], [⟨"prop1", none, .string "1".toList⟩], []⟩]
#guard shape "parent /-{\nchild\n}" = some [⟨"parent", none, [], [], []⟩]
-- parse_node_whitespace
#guard shape "hello  {   }" = some [⟨"hello", none, [], [], []⟩]
#guard shape "hello  {   }  " = some [⟨"hello", none, [], [], []⟩]
#guard shape "hello " = some [⟨"hello", none, [], [], []⟩]
#guard shape "hello   " = some [⟨"hello", none, [], [], []⟩]
-- parse_node_err
def identArg (o len : Nat) : PErr Nat :=
  .messageWithHelp (some "unexpected identifier".toList) ⟨o, o + len⟩
    "identifiers cannot be used as arguments".toList "consider enclosing in double quotes \"..\"".toList
#guard errs nodes "hello{" = some [unclosed "curly braces" 5 1 (.char '{') 6 0 (.char '}')]
#guard errs nodes "hello world" = some [identArg 6 5]
#guard errs nodes "hello world {" =
  some [identArg 6 5, unclosed "curly braces" 12 1 (.char '{') 13 0 (.char '}')]
#guard errs nodes "1 + 2" =
  some [unexp (some "unexpected number") 0 1 (.kind "number".toList) [.kind "identifier".toList]]
#guard errs nodes "-1 +2" =
  some [unexp (some "unexpected number") 0 2 (.kind "number".toList) [.kind "identifier".toList]]
-- parse_nodes
#guard shape "parent {\n/-  child\n}" = some [⟨"parent", none, [], [], []⟩]
#guard shape "/-parent {\n  child\n}\nsecond" = some [⟨"second", none, [], [], []⟩]
-- parse_number
#guard val number "12" = some (.int .dec "12".toList)
#guard val number "012" = some (.int .dec "012".toList)
#guard val number "0" = some (.int .dec "0".toList)
#guard val number "-012" = some (.int .dec "-012".toList)
#guard val number "+0" = some (.int .dec "+0".toList)
#guard val number "123_555" = some (.int .dec "123555".toList)
#guard val number "123.555" = some (.decimal "123.555".toList)
#guard val number "+1_23.5_55E-17" = some (.decimal "+123.555E-17".toList)
#guard val number "123e+555" = some (.decimal "123e+555".toList)
-- parse_radix_number
#guard val number "0x12" = some (.int .hex "12".toList)
#guard val number "0xab_12" = some (.int .hex "ab12".toList)
#guard val number "-0xab_12" = some (.int .hex "-ab12".toList)
#guard val number "0o17" = some (.int .oct "17".toList)
#guard val number "+0o17" = some (.int .oct "+17".toList)
#guard val number "0b1010_101" = some (.int .bin "1010101".toList)
-- parse_dashes
#guard shape "-" = some [⟨"-", none, [], [], []⟩]
#guard shape "--" = some [⟨"--", none, [], [], []⟩]
#guard shape "--1" = some [⟨"--1", none, [], [], []⟩]
#guard shape "-\n-" = some [⟨"-", none, [], [], []⟩, ⟨"-", none, [], [], []⟩]
#guard shape "node -1 --x=2" =
  some [⟨"node", none, [.int .dec "-1".toList], [⟨"--x", none, .int .dec "2".toList⟩], []⟩]

/-- spans of the top-level nodes, tests/ast.rs -/
def spans (text : String) : Option (List (Nat × Nat)) :=
  match parseAst text.toList with
  | some (.ok d) => some (d.nodes.map (fun n => (n.span.start, n.span.stop)))
  | _ => none
#guard spans "node \"hello\"" = some [(0, 12)]
#guard spans "   node  \"hello\"     " = some [(3, 21)]
#guard spans "   node  \"hello\";     " = some [(3, 17)]
#guard spans "   node  \"hello\"     {   child;   }" = some [(3, 35)]

end Knuffel.Tests
