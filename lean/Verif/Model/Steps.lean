import Verif.Model.Grammar
/-!
# How much work the parser does

The combinators of `Verif.Model.Chumsky` and the grammar of
`Verif.Model.Grammar` again, this time with the number of times the parser
looks at the input stream (calls of `stream.next()` in chumsky 0.9.2).  A `PS`
is a parser together with this number.  Everything below has the same structure
as the parser it counts for, and `Verif.Theory.Steps` proves that forgetting the
numbers gives exactly the parsers of `Verif.Model.Grammar`.

Simplified: only looks at the stream are counted, not the work done on values
and on sets of expected tokens.
-/

namespace Knuffel

/-- A parser (src/grammar.rs:1-36, chumsky's `Parser`) and the number of looks
at the stream that a run of it takes. -/
structure PS (O α : Type) where
  run : P O α
  cost : Sp O → List (Tok O) → Nat

namespace Steps
variable {O α β γ : Type}

/-- `just(c)`: one look. Used for src/grammar.rs:45, 51-58. -/
def just (c : Char) : PS O Char := ⟨Knuffel.just c, fun _ _ => 1⟩

/-- The looks of `just("...")`: one for each matching character and one for the
first that differs. Used for src/grammar.rs:134, 313-320. -/
def strCost : Str → List (Tok O) → Nat
  | [], _ => 0
  | _ :: _, [] => 1
  | c :: cs, (x, _) :: t => 1 + if x = c then strCost cs t else 0

/-- `just("...")`. Used for src/grammar.rs:134, 313-320. -/
def justStr (cs : Str) : PS O Unit := ⟨Knuffel.justStr cs, fun _ s => strCost cs s⟩

/-- `filter(pred)`: one look. Used for src/grammar.rs:64, 74, 88, 103, 239, 326, 330. -/
def filter (f : Char → Bool) : PS O Char := ⟨Knuffel.filter f, fun _ _ => 1⟩

/-- `filter_map(f)`: one look. Used for src/grammar.rs:195, 210. -/
def filterMap (f : Sp O → Char → Except (PErr O) α) : PS O α := ⟨Knuffel.filterMap f, fun _ _ => 1⟩

/-- `none_of(c)`: one look. Used for src/grammar.rs:131-132. -/
def noneOf (c : Char) : PS O Char := filter (fun x => x != c)

/-- `end()`: one look. Used for src/grammar.rs:124, 405, 594. -/
def endP : PS O Unit := ⟨Knuffel.endP, fun _ _ => 1⟩

/-- `.map(f)`. Used for src/grammar.rs:157, 181, 243. -/
def pmap (f : α → β) (p : PS O α) : PS O β := ⟨Knuffel.pmap f p.run, p.cost⟩

/-- `.ignored()`. Used for src/grammar.rs:47, 59, 70. -/
def ignored (p : PS O α) : PS O Unit := pmap (fun _ => ()) p

/-- `.map_err(f)`. Used for src/grammar.rs:46, 60, 84. -/
def mapErr (f : PErr O → PErr O) (p : PS O α) : PS O α := ⟨Knuffel.mapErr f p.run, p.cost⟩

/-- `.map_err_with_span(f)`. Used for src/grammar.rs:136, 164, 244, 518. -/
def mapErrWithSpan (f : PErr O → Sp O → PErr O) (p : PS O α) : PS O α :=
  ⟨Knuffel.mapErrWithSpan f p.run, p.cost⟩

/-- `.map_with_span(f)`. Used for src/grammar.rs:391. -/
def mapWithSpan (f : α → Sp O → β) (p : PS O α) : PS O β := ⟨Knuffel.mapWithSpan f p.run, p.cost⟩

/-- `.try_map(f)`. Used for src/grammar.rs:221, 269, 303, 430. -/
def tryMap (f : α → Sp O → Except (PErr O) β) (p : PS O α) : PS O β :=
  ⟨Knuffel.tryMap f p.run, p.cost⟩

/-- `.validate(f)`. Used for src/grammar.rs:470. -/
def validate (f : α → Sp O → List (PErr O)) (p : PS O α) : PS O α :=
  ⟨Knuffel.validate f p.run, p.cost⟩

/-- `.then_with(f)`: the second parser runs if the first succeeds. Used for src/grammar.rs:159. -/
def bind (p : PS O α) (f : α → PS O β) : PS O β :=
  ⟨Knuffel.bind p.run (fun a => (f a).run), fun eoi s =>
    p.cost eoi s + match (p.run eoi s).out with
      | .ok (a, _) => (f a).cost eoi (p.run eoi s).rest
      | .error _ => 0⟩

/-- `.then(q)`. Used for src/grammar.rs:124, 355, 415. -/
def seq (p : PS O α) (q : PS O β) : PS O (α × β) := bind p (fun a => pmap (fun b => (a, b)) q)
/-- `.ignore_then(q)`. Used for src/grammar.rs:47, 53, 157. -/
def ignoreThen (p : PS O α) (q : PS O β) : PS O β := bind p (fun _ => q)
/-- `.then_ignore(q)`. Used for src/grammar.rs:132, 158, 242. -/
def thenIgnore (p : PS O α) (q : PS O β) : PS O α := bind p (fun a => pmap (fun _ => a) q)
/-- `.delimited_by(l, r)`. Used for src/grammar.rs:134, 220, 384. -/
def delimitedBy (p : PS O α) (l : PS O β) (r : PS O γ) : PS O α := thenIgnore (ignoreThen l p) r

/-- `.or(q)`: the second parser runs (from the start) unless the first succeeds
without recorded errors. Used for src/grammar.rs:54-58, 118, 124. -/
def orP (p q : PS O α) : PS O α :=
  ⟨Knuffel.orP p.run q.run, fun eoi s =>
    p.cost eoi s + if (p.run eoi s).clean then 0 else q.cost eoi s⟩

/-- The looks of `choice`: each parser runs from the start until one succeeds. Used for
src/grammar.rs:129, 264, 295, 312. -/
def choiceCost (eoi : Sp O) (s : List (Tok O)) : List (PS O α) → Nat
  | [] => 0
  | p :: ps => p.cost eoi s + match (p.run eoi s).out with
    | .ok _ => 0
    | .error _ => choiceCost eoi s ps

/-- `choice((p, q, ...))`. Used for src/grammar.rs:129, 264, 295, 312. -/
def choice (ps : List (PS O α)) : PS O α :=
  ⟨Knuffel.choice (ps.map PS.run), fun eoi s => choiceCost eoi s ps⟩

/-- `.or_not()`. Used for src/grammar.rs:52, 334-340. -/
def orNot (p : PS O α) : PS O (Option α) := ⟨Knuffel.orNot p.run, p.cost⟩

/-- `.rewind()`. Used for src/grammar.rs:132. -/
def rewind (p : PS O α) : PS O α := ⟨Knuffel.rewind p.run, p.cost⟩

/-- The looks of `.repeated().at_most(max)`, with the fuel and the number of
successes so far: the parser runs until it fails. Used for src/grammar.rs:118, 133, 157. -/
def repCost (p : PS O α) (max : Option Nat) (eoi : Sp O) : Nat → Nat → List (Tok O) → Nat
  | 0, _, _ => 0
  | fuel + 1, count, s =>
    if max = some count then 0
    else p.cost eoi s + match (p.run eoi s).out with
      | .ok _ =>
        if (p.run eoi s).rest.length < s.length then repCost p max eoi fuel (count + 1) (p.run eoi s).rest
        else 0
      | .error _ => 0

/-- `.repeated().at_least(min).at_most(max)`. Used for src/grammar.rs:118, 162, 217-219. -/
def repeatedB (min : Nat) (max : Option Nat) (p : PS O α) : PS O (List α) :=
  ⟨Knuffel.repeatedB min max p.run, fun eoi s => repCost p max eoi (s.length + 1) 0 s⟩

/-- `.repeated()`. Used for src/grammar.rs:133, 157, 241. -/
def repeated (p : PS O α) : PS O (List α) := repeatedB 0 none p

/-- The looks of `take_until(p)`: at every position the parser runs, and if it
fails one character is taken. Used for src/grammar.rs:124, 160. -/
def untilCost (p : PS O β) (eoi : Sp O) : Nat → List (Tok O) → Nat
  | 0, _ => 0
  | fuel + 1, s => p.cost eoi s + match (p.run eoi s).out with
    | .ok _ => 0
    | .error _ => 1 + match s with
      | [] => 0
      | _ :: t => untilCost p eoi fuel t

/-- `take_until(p)`. Used for src/grammar.rs:124, 160. -/
def takeUntil (p : PS O β) : PS O (List Char × β) :=
  ⟨Knuffel.takeUntil p.run, fun eoi s => untilCost p eoi (s.length + 1) s⟩

/-- The looks of skipping to one of the characters. Used for src/grammar.rs:233. -/
def skipCost (until_ : List Char) : List (Tok O) → Nat
  | [] => 1
  | t :: ts => 1 + if until_.contains t.1 then 0 else skipCost until_ ts

/-- `.recover_with(skip_until(until, fallback))`. Used for src/grammar.rs:233. -/
def recoverSkipUntil (until_ : List Char) (fallback : α) (p : PS O α) : PS O α :=
  ⟨Knuffel.recoverSkipUntil until_ fallback p.run, fun eoi s =>
    p.cost eoi s + match (p.run eoi s).out with
      | .ok _ => 0
      | .error _ => skipCost until_ s⟩

/-- The looks of the loop of `.separated_by(delim)` after a successful item. Used for src/grammar.rs:579-580. -/
def sepCost (item : PS O α) (delim : PS O β) (eoi : Sp O) : Nat → List (Tok O) → Nat
  | 0, _ => 0
  | fuel + 1, s =>
    delim.cost eoi s + match (delim.run eoi s).out with
      | .error _ => 0
      | .ok _ =>
        item.cost eoi (delim.run eoi s).rest + match (item.run eoi (delim.run eoi s).rest).out with
          | .error _ => 0
          | .ok _ =>
            if (item.run eoi (delim.run eoi s).rest).rest.length < s.length then
              sepCost item delim eoi fuel (item.run eoi (delim.run eoi s).rest).rest
            else 0

/-- Where the loop of `.separated_by(delim)` ends: after the last item. Used for src/grammar.rs:579-580. -/
def sepEnd (item : PS O α) (delim : PS O β) (eoi : Sp O) : Nat → List (Tok O) → List (Tok O)
  | 0, s => s
  | fuel + 1, s =>
    match (delim.run eoi s).out with
    | .error _ => s
    | .ok _ =>
      match (item.run eoi (delim.run eoi s).rest).out with
      | .error _ => s
      | .ok _ =>
        if (item.run eoi (delim.run eoi s).rest).rest.length < s.length then
          sepEnd item delim eoi fuel (item.run eoi (delim.run eoi s).rest).rest
        else s

/-- `.separated_by(delim).allow_leading().allow_trailing()`: an optional
delimiter, the first item, the loop, an optional delimiter. Used for src/grammar.rs:579-580. -/
def separatedBy (item : PS O α) (delim : PS O β) : PS O (List α) :=
  ⟨Knuffel.separatedBy item.run delim.run, fun eoi s =>
    let s0 := (Knuffel.sepDelim delim.run eoi none s).2.2
    delim.cost eoi s + (item.cost eoi s0 + match (item.run eoi s0).out with
      | .error _ => 0
      | .ok _ =>
        let t := (item.run eoi s0).rest
        sepCost item delim eoi (t.length + 1) t + delim.cost eoi (sepEnd item delim eoi (t.length + 1) t))⟩

/-- A rule whose recursion bound was exceeded (proved impossible). Used for src/grammar.rs:128, 513
(`recursive`). -/
def tooDeep : PS O α := ⟨Knuffel.tooDeep, fun _ _ => 0⟩

/-- src/grammar.rs:42-48. -/
def beginComment (which : Char) : PS O Unit :=
  ignoreThen (mapErr PErr.withNoExpected (just '/')) (ignored (just which))

/-- src/grammar.rs:50-61. -/
def newline : PS O Unit :=
  mapErr (PErr.withExpectedKind "newline".toList)
    (ignored
      (orP (orP (orP (orP (orP
        (ignoreThen (orNot (just '\r')) (just '\n'))
        (just '\r'))
        (just '\x0c'))
        (just '\u0085'))
        (just '\u2028'))
        (just '\u2029')))

/-- src/grammar.rs:63-71. -/
def wsChar : PS O Unit := ignored (filter isWsChar)

/-- src/grammar.rs:73-85. -/
def idChar : PS O Char := mapErr (PErr.withExpectedKind "letter".toList) (filter isIdChar)

/-- src/grammar.rs:87-100. -/
def idSansDig : PS O Char := mapErr (PErr.withExpectedKind "letter".toList) (filter isIdSansDig)

/-- src/grammar.rs:102-115. -/
def idSansSignDig : PS O Char := mapErr (PErr.withExpectedKind "letter".toList) (filter isIdSansSignDig)

/-- src/grammar.rs:122-125. -/
def comment : PS O Unit :=
  ignored (seq (beginComment '/') (takeUntil (orP newline endP)))

/-- The recursive part of `ml_comment`, src/grammar.rs:128-135, with a bound on
the nesting depth. -/
def mlCommentRec : Nat → PS O Unit
  | 0 => tooDeep
  | n + 1 =>
    delimitedBy
      (ignored (repeated (choice [
        mlCommentRec n,
        ignored (noneOf '*'),
        ignored (thenIgnore (just '*') (rewind (noneOf '/')))])))
      (beginComment '*') (justStr "*/".toList)

variable [Offset O]

/-- src/grammar.rs:127-153.  The nesting depth is bounded by the input length. -/
def mlComment : PS O Unit :=
  ⟨fun eoi s => (mapErrWithSpan mlCommentErr (mlCommentRec (s.length + 1))).run eoi s,
   fun eoi s => (mapErrWithSpan mlCommentErr (mlCommentRec (s.length + 1))).cost eoi s⟩

/-- src/grammar.rs:117-120. -/
def ws : PS O Unit :=
  mapErr (PErr.withExpectedKind "whitespace".toList)
    (orP (ignored (repeatedB 1 none wsChar)) mlComment)

/-- src/grammar.rs:155-184. -/
def rawString : PS O Str :=
  pmap (fun x => x.1)
    (bind
      (thenIgnore
        (ignoreThen (just 'r') (pmap List.length (repeated (just '#'))))
        (just '"'))
      (fun n =>
        mapErrWithSpan (rawStringErr n)
          (takeUntil (ignoreThen (just '"') (ignored (repeatedB n (some n) (just '#')))))))

/-- src/grammar.rs:194-234. -/
def escChar : PS O Char :=
  orP (filterMap escSimple)
    (ignoreThen (just 'u')
      (recoverSkipUntil ['}', '"', '\\'] '\x00'
        (tryMap hexToChar
          (delimitedBy (repeatedB 1 (some 6) (filterMap hexDigit)) (just '{') (just '}')))))

/-- One (possibly escaped) character of a string, src/grammar.rs:239-240. -/
def strChar : PS O Char :=
  orP (filter (fun c => c != '"' && c != '\\')) (ignoreThen (just '\\') escChar)

/-- src/grammar.rs:236-260. -/
def escapedString : PS O Str :=
  ignoreThen (just '"')
    (mapErrWithSpan stringErr (thenIgnore (repeated strChar) (just '"')))

/-- src/grammar.rs:186-188. -/
def string : PS O Str := orP rawString escapedString

/-- src/grammar.rs:263. -/
def sign : PS O Char := orP (just '+') (just '-')

/-- src/grammar.rs:262-292.  `chain` concatenates the characters. -/
def bareIdent : PS O Str :=
  tryMap checkKeyword
    (choice [
      pmap (fun x => x.1 :: x.2.1 :: x.2.2) (seq sign (seq idSansDig (repeated idChar))),
      repeatedB 1 (some 1) sign,
      pmap (fun x => x.1 :: x.2) (seq idSansSignDig (repeated idChar))])

/-- src/grammar.rs:325-327. -/
def digit (radix : Nat) : PS O Char := filter (isDigit radix)

/-- src/grammar.rs:329-331. -/
def digits (radix : Nat) : PS O (List Char) := repeated (filter (fun c => c == '_' || isDigit radix c))

/-- `just('-').or(just('+')).or_not()`, src/grammar.rs:334, 339, 353. -/
def optSign : PS O (Option Char) := orNot (orP (just '-') (just '+'))

/-- src/grammar.rs:333-350; `chain_c` concatenates, `flatten` turns a missing
part into the empty list. -/
def decimalNumber : PS O Literal :=
  pmap (fun x =>
      let ((((sg, d), ds), frac), exp) := x
      decimalLit (sg.toList ++ [d] ++ ds ++ (frac.getD []) ++ (exp.getD [])))
    (seq (seq (seq (seq optSign (digit 10)) (digits 10))
      (orNot (pmap (fun x => x.1.1 :: x.1.2 :: x.2) (seq (seq (just '.') (digit 10)) (digits 10)))))
      (orNot (pmap (fun x => x.1.1 :: (x.1.2.toList ++ x.2))
        (seq (seq (orP (just 'e') (just 'E')) optSign) (digits 10)))))

/-- The digits after the radix mark, e.g. `just('b').ignore_then(digit(2).chain(digits(2)).map(..))`,
src/grammar.rs:356-361. -/
def radixDigits (mark : Char) (radix : Nat) (r : Radix) : PS O (Radix × List Char) :=
  ignoreThen (just mark) (pmap (fun x => (r, x.1 :: x.2)) (seq (digit radix) (digits radix)))

/-- src/grammar.rs:352-369. -/
def radixNumber : PS O Literal :=
  pmap (fun x => .int x.2.1 (x.1.toList ++ x.2.2.filter (fun c => c != '_')))
    (seq (thenIgnore optSign (just '0'))
      (choice [radixDigits 'b' 2 .bin, radixDigits 'o' 8 .oct, radixDigits 'x' 16 .hex]))

/-- src/grammar.rs:371-373. -/
def number : PS O Literal := orP radixNumber decimalNumber

/-- src/grammar.rs:311-323. -/
def keyword : PS O Literal :=
  choice [
    pmap (fun _ => .null) (mapErr (PErr.withExpectedToken "null".toList) (justStr "null".toList)),
    pmap (fun _ => .bool true) (mapErr (PErr.withExpectedToken "true".toList) (justStr "true".toList)),
    pmap (fun _ => .bool false) (mapErr (PErr.withExpectedToken "false".toList) (justStr "false".toList))]

/-- src/grammar.rs:387-392. -/
def spanned {α : Type} (p : PS O α) : PS O (Spanned α (Sp O)) :=
  mapWithSpan (fun value span => ⟨span, value⟩) p

/-- src/grammar.rs:294-309. -/
def ident : PS O Str :=
  tryMap checkNumber
    (choice [
      pmap (fun _ => none) number,
      pmap some bareIdent,
      pmap some string])

/-- src/grammar.rs:375-381. -/
def literal : PS O Literal := choice [pmap .string string, keyword, number]

/-- src/grammar.rs:383-385. -/
def typeName : PS O TypeName := pmap TypeName.fromString (delimitedBy ident (just '(') (just ')'))

/-- src/grammar.rs:394-398. -/
def escLine : PS O Unit :=
  ignoreThen (ignoreThen (just '\\') (repeated ws)) (orP comment newline)

/-- src/grammar.rs:400-402. -/
def nodeSpace : PS O Unit := orP ws escLine

/-- src/grammar.rs:404-406. -/
def nodeTerminator : PS O Unit := choice [newline, comment, ignored (just ';'), endP]

/-- src/grammar.rs:414-417. -/
def typeNameValue : PS O (Value (Sp O)) :=
  pmap (fun x => ⟨some x.1, x.2⟩) (seq (spanned typeName) (spanned literal))

/-- src/grammar.rs:419-422. -/
def value : PS O (Value (Sp O)) :=
  orP typeNameValue (pmap (fun l => ⟨none, l⟩) (spanned literal))

/-- `just('=').ignore_then(value()).or_not()`, src/grammar.rs:429, 469. -/
def optValue : PS O (Option (Value (Sp O))) := orNot (ignoreThen (just '=') value)

/-- src/grammar.rs:424-496. -/
def propOrArgInner : PS O (PropOrArg (Sp O)) :=
  choice [
    tryMap literalEntry (seq (spanned literal) optValue),
    pmap identEntry (validate identEntryErrs (seq (spanned bareIdent) optValue)),
    pmap .arg typeNameValue]

/-- src/grammar.rs:498-504. -/
def propOrArg : PS O (PropOrArg (Sp O)) :=
  orP
    (pmap (fun _ => .ignore)
      (ignoreThen (ignoreThen (beginComment '-') (repeated nodeSpace)) propOrArgInner))
    propOrArgInner

/-- src/grammar.rs:506-508. -/
def lineSpace : PS O Unit := orP (orP newline ws) comment

/-- src/grammar.rs:514-534, given the parser for the inner nodes. -/
def bracedNodes (inner : PS O (List (SpannedNode (Sp O)))) : PS O (List (SpannedNode (Sp O))) :=
  ignoreThen (just '{') (mapErrWithSpan bracesErr (thenIgnore inner (just '}')))

/-- One entry of a node with the space before it, src/grammar.rs:539-541. -/
def spaceEntry : PS O (PropOrArg (Sp O)) := ignoreThen (repeatedB 1 none nodeSpace) propOrArg

/-- The optional children block, src/grammar.rs:544-549. -/
def optChildren (inner : PS O (List (SpannedNode (Sp O)))) :
    PS O (Option (Option Unit × Spanned (List (SpannedNode (Sp O))) (Sp O))) :=
  orNot
    (seq
      (ignoreThen (repeated nodeSpace)
        (orNot (thenIgnore (beginComment '-') (repeated nodeSpace))))
      (spanned (bracedNodes inner)))

/-- src/grammar.rs:536-575, given the parser for the inner nodes. -/
def node (inner : PS O (List (SpannedNode (Sp O)))) : PS O (Node (Sp O)) :=
  pmap (fun x =>
      let (((typeName, nodeName), items), children) := x
      buildNode typeName nodeName items children)
    (thenIgnore
      (seq (seq (seq (orNot (spanned typeName)) (spanned ident))
        (repeated spaceEntry))
        (optChildren inner))
      (seq (repeated nodeSpace) nodeTerminator))

/-- A possibly commented-out node, src/grammar.rs:577-578. -/
def nodeItem (inner : PS O (List (SpannedNode (Sp O)))) :
    PS O (Option Unit × SpannedNode (Sp O)) :=
  seq (orNot (thenIgnore (beginComment '-') (repeated nodeSpace))) (spanned (node inner))

/-- The recursive rule of src/grammar.rs:513-588 with a bound on the depth. -/
def nodesRec : Nat → PS O (List (SpannedNode (Sp O)))
  | 0 => tooDeep
  | n + 1 => pmap keepNodes (separatedBy (nodeItem (nodesRec n)) (repeated lineSpace))

/-- src/grammar.rs:511-589.  The nesting depth is bounded by the input length. -/
def nodes : PS O (List (SpannedNode (Sp O))) :=
  ⟨fun eoi s => (nodesRec (s.length + 1)).run eoi s, fun eoi s => (nodesRec (s.length + 1)).cost eoi s⟩

/-- src/grammar.rs:591-595. -/
def document : PS O (Document (Sp O)) := pmap (fun nodes => ⟨nodes⟩) (thenIgnore nodes endP)


end Steps

/-- The number of looks at the stream that reading a text takes
(`parse_ast`, src/wrappers.rs:57-74; byte positions, as `document()` does not
depend on them). -/
def parseSteps (text : Str) : Nat :=
  Steps.document.cost (offsetEoi text) (offsetToks 0 text)

end Knuffel
