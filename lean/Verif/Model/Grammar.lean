import Verif.Model.Chars
import Verif.Model.Chumsky
/-!
# The grammar

Models `src/grammar.rs`, function by function, on top of the combinators of
`Verif.Model.Chumsky`.
-/

namespace Knuffel

variable {O : Type}

/-- src/grammar.rs:42-48. -/
def beginComment (which : Char) : P O Unit :=
  ignoreThen (mapErr PErr.withNoExpected (just '/')) (ignored (just which))

/-- src/grammar.rs:50-61. -/
def newline : P O Unit :=
  mapErr (PErr.withExpectedKind "newline".toList)
    (ignored
      (orP (orP (orP (orP (orP
        (ignoreThen (orNot (just '\r')) (just '\n'))
        (just '\r'))
        (just '\x0c'))
        (just '\u0085'))
        (just '\u2028'))
        (just '\u2029')))

/-- src/grammar.rs:63-71. -/
def wsChar : P O Unit := ignored (filter isWsChar)

/-- src/grammar.rs:73-85. -/
def idChar : P O Char := mapErr (PErr.withExpectedKind "letter".toList) (filter isIdChar)
/-- src/grammar.rs:87-100. -/
def idSansDig : P O Char := mapErr (PErr.withExpectedKind "letter".toList) (filter isIdSansDig)
/-- src/grammar.rs:102-115. -/
def idSansSignDig : P O Char := mapErr (PErr.withExpectedKind "letter".toList) (filter isIdSansSignDig)

/-- src/grammar.rs:122-125. -/
def comment : P O Unit :=
  ignored (seq (beginComment '/') (takeUntil (orP newline endP)))

/-- The recursive part of `ml_comment`, src/grammar.rs:128-135, with a bound on
the nesting depth. -/
def mlCommentRec : Nat → P O Unit
  | 0 => tooDeep
  | n + 1 =>
    delimitedBy
      (ignored (repeated (choice [
        mlCommentRec n,
        ignored (noneOf '*'),
        ignored (thenIgnore (just '*') (rewind (noneOf '/')))])))
      (beginComment '*') (justStr "*/".toList)

section
variable [Offset O]

/-- The error mapping of `ml_comment`, src/grammar.rs:136-152. -/
def mlCommentErr (e : PErr O) (span : Sp O) : PErr O :=
  if e.isEoi && span.length > 2 then
    (e.merge (.unclosed "comment".toList (span.atStart 2) (.token "/*".toList) span.atEnd
      (.token "*/".toList) .eoi)).getD e
  else e

/-- src/grammar.rs:127-153.  The nesting depth is bounded by the input length. -/
def mlComment : P O Unit := fun eoi s =>
  mapErrWithSpan mlCommentErr (mlCommentRec (s.length + 1)) eoi s

/-- src/grammar.rs:117-120. -/
def ws : P O Unit :=
  mapErr (PErr.withExpectedKind "whitespace".toList)
    (orP (ignored (repeatedB 1 none wsChar)) mlComment)

/-- The error mapping of `raw_string`, src/grammar.rs:164-179. -/
def rawStringErr (n : Nat) (e : PErr O) (span : Sp O) : PErr O :=
  if e.isEoi then
    (e.merge (.unclosed "raw string".toList (span.beforeStart (n + 2)) (.openRaw n) span.atEnd
      (.closeRaw n) .eoi)).getD e
  else e

/-- src/grammar.rs:155-184. -/
def rawString : P O Str :=
  pmap (fun x => x.1)
    (bind
      (thenIgnore
        (ignoreThen (just 'r') (pmap List.length (repeated (just '#'))))
        (just '"'))
      (fun n =>
        mapErrWithSpan (rawStringErr n)
          (takeUntil (ignoreThen (just '"') (ignored (repeatedB n (some n) (just '#')))))))

/-- The mapping function of the simple escapes, src/grammar.rs:195-208. -/
def escSimple (span : Sp O) (c : Char) : Except (PErr O) Char :=
  if c = '"' ∨ c = '\\' ∨ c = '/' then .ok c
  else if c = 'b' then .ok '\x08'
  else if c = 'f' then .ok '\x0c'
  else if c = 'n' then .ok '\n'
  else if c = 'r' then .ok '\r'
  else if c = 't' then .ok '\t'
  else .error (.unexpected (some "invalid escape char".toList) span (.char c)
    (setOf ("\"\\/bfnrt".toList.map .char)))

/-- A hexadecimal digit, src/grammar.rs:210-216. -/
def hexDigit (span : Sp O) (c : Char) : Except (PErr O) Char :=
  if isDigit 16 c then .ok c
  else .error (.unexpected (some "unexpected character".toList) span (.char c)
    [.kind "hexadecimal digit".toList])

/-- The conversion of the hexadecimal digits, src/grammar.rs:221-232.  At most
six digits, so `u32::from_str_radix` cannot overflow; the message is that of
`CharTryFromError`. -/
def hexToChar (hex : List Char) (span : Sp O) : Except (PErr O) Char :=
  match charOfNat? (digitsVal 16 hex) with
  | some c => .ok c
  | none => .error (.message (some "invalid character code".toList) span
      "converted integer out of range for `char`".toList)

/-- src/grammar.rs:194-234. -/
def escChar : P O Char :=
  orP (filterMap escSimple)
    (ignoreThen (just 'u')
      (recoverSkipUntil ['}', '"', '\\'] '\x00'
        (tryMap hexToChar
          (delimitedBy (repeatedB 1 (some 6) (filterMap hexDigit)) (just '{') (just '}')))))

/-- The error mapping of `escaped_string`, src/grammar.rs:244-258. -/
def stringErr (e : PErr O) (span : Sp O) : PErr O :=
  if e.isEoi then
    (e.merge (.unclosed "string".toList (span.beforeStart 1) (.char '"') span.atEnd
      (.char '"') .eoi)).getD e
  else e

/-- One (possibly escaped) character of a string, src/grammar.rs:239-240. -/
def strChar : P O Char :=
  orP (filter (fun c => c != '"' && c != '\\')) (ignoreThen (just '\\') escChar)

/-- src/grammar.rs:236-260. -/
def escapedString : P O Str :=
  ignoreThen (just '"')
    (mapErrWithSpan stringErr (thenIgnore (repeated strChar) (just '"')))

/-- src/grammar.rs:186-188. -/
def string : P O Str := orP rawString escapedString

end

/-- The keyword check of `bare_ident`, src/grammar.rs:269-291. -/
def checkKeyword (s : Str) (span : Sp O) : Except (PErr O) Str :=
  if s = "true".toList ∨ s = "false".toList ∨ s = "null".toList then
    .error (.unexpected (some "keyword".toList) span (.token s) [.kind "identifier".toList])
  else .ok s

/-- src/grammar.rs:263. -/
def sign : P O Char := orP (just '+') (just '-')

/-- src/grammar.rs:262-292.  `chain` concatenates the characters. -/
def bareIdent : P O Str :=
  tryMap checkKeyword
    (choice [
      pmap (fun x => x.1 :: x.2.1 :: x.2.2) (seq sign (seq idSansDig (repeated idChar))),
      repeatedB 1 (some 1) sign,
      pmap (fun x => x.1 :: x.2) (seq idSansSignDig (repeated idChar))])

/-- src/grammar.rs:325-327. -/
def digit (radix : Nat) : P O Char := filter (isDigit radix)

/-- src/grammar.rs:329-331. -/
def digits (radix : Nat) : P O (List Char) := repeated (filter (fun c => c == '_' || isDigit radix c))

/-- `just('-').or(just('+')).or_not()`, src/grammar.rs:334, 339, 353. -/
def optSign : P O (Option Char) := orNot (orP (just '-') (just '+'))

/-- The mapping of the characters of a decimal number, src/grammar.rs:341-349. -/
def decimalLit (v : List Char) : Literal :=
  let s := v.filter (fun c => c != '_')
  if v.any (fun c => c == '.' || c == 'e' || c == 'E') then .decimal s else .int .dec s

/-- src/grammar.rs:333-350; `chain_c` concatenates, `flatten` turns a missing
part into the empty list. -/
def decimalNumber : P O Literal :=
  pmap (fun x =>
      let ((((sg, d), ds), frac), exp) := x
      decimalLit (sg.toList ++ [d] ++ ds ++ (frac.getD []) ++ (exp.getD [])))
    (seq (seq (seq (seq optSign (digit 10)) (digits 10))
      (orNot (pmap (fun x => x.1.1 :: x.1.2 :: x.2) (seq (seq (just '.') (digit 10)) (digits 10)))))
      (orNot (pmap (fun x => x.1.1 :: (x.1.2.toList ++ x.2))
        (seq (seq (orP (just 'e') (just 'E')) optSign) (digits 10)))))

/-- The digits after the radix mark, e.g. `just('b').ignore_then(digit(2).chain(digits(2)).map(..))`,
src/grammar.rs:356-361. -/
def radixDigits (mark : Char) (radix : Nat) (r : Radix) : P O (Radix × List Char) :=
  ignoreThen (just mark) (pmap (fun x => (r, x.1 :: x.2)) (seq (digit radix) (digits radix)))

/-- src/grammar.rs:352-369. -/
def radixNumber : P O Literal :=
  pmap (fun x => .int x.2.1 (x.1.toList ++ x.2.2.filter (fun c => c != '_')))
    (seq (thenIgnore optSign (just '0'))
      (choice [radixDigits 'b' 2 .bin, radixDigits 'o' 8 .oct, radixDigits 'x' 16 .hex]))

/-- src/grammar.rs:371-373. -/
def number : P O Literal := orP radixNumber decimalNumber

/-- src/grammar.rs:311-323. -/
def keyword : P O Literal :=
  choice [
    pmap (fun _ => .null) (mapErr (PErr.withExpectedToken "null".toList) (justStr "null".toList)),
    pmap (fun _ => .bool true) (mapErr (PErr.withExpectedToken "true".toList) (justStr "true".toList)),
    pmap (fun _ => .bool false) (mapErr (PErr.withExpectedToken "false".toList) (justStr "false".toList))]

/-- The number check of `ident`, src/grammar.rs:303-308 (`none` stands for the
`Result::Err` that numbers are mapped to). -/
def checkNumber (x : Option Str) (span : Sp O) : Except (PErr O) Str :=
  match x with
  | some s => .ok s
  | none => .error (.unexpected (some "unexpected number".toList) span (.kind "number".toList)
      [.kind "identifier".toList])

/-- src/grammar.rs:387-392. -/
def spanned {α : Type} (p : P O α) : P O (Spanned α (Sp O)) :=
  mapWithSpan (fun value span => ⟨span, value⟩) p

/-- `PropOrArg`, src/grammar.rs:408-412. -/
inductive PropOrArg (S : Type) where
  | prop (name : Spanned Str S) (value : Value S)
  | arg (value : Value S)
  | ignore
deriving DecidableEq, Repr

/-- The check of src/grammar.rs:430-468: what `literal` or `literal=value` means. -/
def literalEntry (x : Spanned Literal (Sp O) × Option (Value (Sp O))) (_ : Sp O) :
    Except (PErr O) (PropOrArg (Sp O)) :=
  match x with
  | (⟨nameSpan, .string s⟩, some value) => .ok (.prop ⟨nameSpan, s⟩ value)
  | (⟨nameSpan, .bool _⟩, some _) | (⟨nameSpan, .null⟩, some _) =>
    .error (.unexpected (some "unexpected keyword".toList) nameSpan (.kind "keyword".toList)
      (setOf [.kind "identifier".toList, .kind "string".toList]))
  | (⟨nameSpan, .int _ _⟩, some _) | (⟨nameSpan, .decimal _⟩, some _) =>
    .error (.messageWithHelp (some "unexpected number".toList) nameSpan
      "numbers cannot be used as property names".toList
      "consider enclosing in double quotes \"..\"".toList)
  | (name, none) => .ok (.arg ⟨none, name⟩)

/-- The errors emitted by src/grammar.rs:470-481. -/
def identEntryErrs (x : Spanned Str (Sp O) × Option (Value (Sp O))) (span : Sp O) : List (PErr O) :=
  match x.2 with
  | none => [.messageWithHelp (some "unexpected identifier".toList) span
      "identifiers cannot be used as arguments".toList
      "consider enclosing in double quotes \"..\"".toList]
  | some _ => []

/-- src/grammar.rs:482-493. -/
def identEntry (x : Spanned Str (Sp O) × Option (Value (Sp O))) : PropOrArg (Sp O) :=
  match x with
  | (name, some value) => .prop name value
  | (name, none) => .arg ⟨none, name.map .string⟩

/-- The `for item in line_items` loop, src/grammar.rs:563-573. -/
def collectItems {S : Type} : List (PropOrArg S) → List (Value S) × List (Spanned Str S × Value S) →
    List (Value S) × List (Spanned Str S × Value S)
  | [], acc => acc
  | .prop n v :: rest, (args, props) => collectItems rest (args, propInsert n v props)
  | .arg v :: rest, (args, props) => collectItems rest (args ++ [v], props)
  | .ignore :: rest, acc => collectItems rest acc

/-- src/grammar.rs:551-575. -/
def buildNode {S : Type} (typeName : Option (Spanned TypeName S)) (nodeName : Spanned Str S)
    (items : List (PropOrArg S)) (optChildren : Option (Option Unit × Spanned (List (SpannedNode S)) S)) :
    Node S :=
  let r := collectItems items ([], [])
  .mk typeName nodeName r.1 r.2
    (match optChildren with
      | some (some _, _) => none
      | some (none, children) => some children
      | none => none)

section
variable [Offset O]

/-- src/grammar.rs:294-309. -/
def ident : P O Str :=
  tryMap checkNumber
    (choice [
      pmap (fun _ => none) number,
      pmap some bareIdent,
      pmap some string])

/-- src/grammar.rs:375-381. -/
def literal : P O Literal := choice [pmap .string string, keyword, number]

/-- src/grammar.rs:383-385. -/
def typeName : P O TypeName := pmap TypeName.fromString (delimitedBy ident (just '(') (just ')'))

/-- src/grammar.rs:394-398. -/
def escLine : P O Unit :=
  ignoreThen (ignoreThen (just '\\') (repeated ws)) (orP comment newline)

/-- src/grammar.rs:400-402. -/
def nodeSpace : P O Unit := orP ws escLine

/-- src/grammar.rs:404-406. -/
def nodeTerminator : P O Unit := choice [newline, comment, ignored (just ';'), endP]

/-- src/grammar.rs:414-417. -/
def typeNameValue : P O (Value (Sp O)) :=
  pmap (fun x => ⟨some x.1, x.2⟩) (seq (spanned typeName) (spanned literal))

/-- src/grammar.rs:419-422. -/
def value : P O (Value (Sp O)) :=
  orP typeNameValue (pmap (fun l => ⟨none, l⟩) (spanned literal))

/-- `just('=').ignore_then(value()).or_not()`, src/grammar.rs:429, 469. -/
def optValue : P O (Option (Value (Sp O))) := orNot (ignoreThen (just '=') value)

/-- src/grammar.rs:424-496. -/
def propOrArgInner : P O (PropOrArg (Sp O)) :=
  choice [
    tryMap literalEntry (seq (spanned literal) optValue),
    pmap identEntry (validate identEntryErrs (seq (spanned bareIdent) optValue)),
    pmap .arg typeNameValue]

/-- src/grammar.rs:498-504. -/
def propOrArg : P O (PropOrArg (Sp O)) :=
  orP
    (pmap (fun _ => .ignore)
      (ignoreThen (ignoreThen (beginComment '-') (repeated nodeSpace)) propOrArgInner))
    propOrArgInner

/-- src/grammar.rs:506-508. -/
def lineSpace : P O Unit := orP (orP newline ws) comment

/-- The error mapping of braces, src/grammar.rs:518-534. -/
def bracesErr (e : PErr O) (span : Sp O) : PErr O :=
  if e.isEoi then
    (e.merge (.unclosed "curly braces".toList (span.beforeStart 1) (.char '{') span.atEnd
      (.char '}') .eoi)).getD e
  else e

/-- src/grammar.rs:514-534, given the parser for the inner nodes. -/
def bracedNodes (inner : P O (List (SpannedNode (Sp O)))) : P O (List (SpannedNode (Sp O))) :=
  ignoreThen (just '{') (mapErrWithSpan bracesErr (thenIgnore inner (just '}')))

/-- One entry of a node with the space before it, src/grammar.rs:539-541. -/
def spaceEntry : P O (PropOrArg (Sp O)) := ignoreThen (repeatedB 1 none nodeSpace) propOrArg

/-- The optional children block, src/grammar.rs:544-549. -/
def optChildren (inner : P O (List (SpannedNode (Sp O)))) :
    P O (Option (Option Unit × Spanned (List (SpannedNode (Sp O))) (Sp O))) :=
  orNot
    (seq
      (ignoreThen (repeated nodeSpace)
        (orNot (thenIgnore (beginComment '-') (repeated nodeSpace))))
      (spanned (bracedNodes inner)))

/-- src/grammar.rs:536-575, given the parser for the inner nodes. -/
def node (inner : P O (List (SpannedNode (Sp O)))) : P O (Node (Sp O)) :=
  pmap (fun x =>
      let (((typeName, nodeName), items), children) := x
      buildNode typeName nodeName items children)
    (thenIgnore
      (seq (seq (seq (orNot (spanned typeName)) (spanned ident))
        (repeated spaceEntry))
        (optChildren inner))
      (seq (repeated nodeSpace) nodeTerminator))

/-- A possibly commented-out node, src/grammar.rs:577-578. -/
def nodeItem (inner : P O (List (SpannedNode (Sp O)))) :
    P O (Option Unit × SpannedNode (Sp O)) :=
  seq (orNot (thenIgnore (beginComment '-') (repeated nodeSpace))) (spanned (node inner))

/-- The `filter_map` of src/grammar.rs:581-587. -/
def keepNodes {S : Type} (l : List (Option Unit × SpannedNode S)) : List (SpannedNode S) :=
  l.filterMap (fun x => match x.1 with
    | none => some x.2
    | some _ => none)

/-- The recursive rule of src/grammar.rs:513-588 with a bound on the depth. -/
def nodesRec : Nat → P O (List (SpannedNode (Sp O)))
  | 0 => tooDeep
  | n + 1 => pmap keepNodes (separatedBy (nodeItem (nodesRec n)) (repeated lineSpace))

/-- src/grammar.rs:511-589.  The nesting depth is bounded by the input length. -/
def nodes : P O (List (SpannedNode (Sp O))) := fun eoi s => nodesRec (s.length + 1) eoi s

/-- src/grammar.rs:591-595. -/
def document : P O (Document (Sp O)) := pmap (fun nodes => ⟨nodes⟩) (thenIgnore nodes endP)

end

end Knuffel
