import Verif.Model.Errors
/-!
# The combinators of chumsky 0.9.2 used by `src/grammar.rs`

chumsky is an external crate whose source is not part of /repo; what is written
here is its behaviour as used by the grammar (trusted, see DESIGN.md; it is
compared with the repository's own grammar tests in `Verif/Tests/Grammar.lean`).

`PResult` in chumsky is `(Vec<Located>, Result<(O, Option<Located>), Located>)`:
the list of *emitted* errors, and either a value with an optional alternative
error, or a fatal error.  The stream is the list of remaining tokens.
`panicked` records whether the real code would have panicked on the way.
-/

namespace Knuffel

/-- chumsky's `Located`.  chumsky stores the number `at` of tokens *before* the
error; we store the number `rem` of tokens from the error to the end of input,
so "further" is "smaller". Used for src/grammar.rs:134-150, 594 (through `map_err` and the parsers
that merge errors; `merge` is src/errors.rs:359-372). -/
structure Loc (O : Type) where
  rem : Nat
  err : PErr O
deriving DecidableEq, Repr

namespace Loc
variable {O : Type}

/-- `Located::max`: the further error; at the same position the errors are
merged (if merging panics, `clash` below says so). Calls src/errors.rs:359-372. -/
def max (a b : Loc O) : Loc O :=
  if a.rem < b.rem then a
  else if b.rem < a.rem then b
  else match a.err.merge b.err with
    | some e => ⟨a.rem, e⟩
    | none => a

/-- Does `Located::max` panic (`todo!`, src/errors.rs:370)? -/
def clash (a b : Loc O) : Bool :=
  a.rem == b.rem && (a.err.merge b.err).isNone

/-- `a.max(opt)`. Calls src/errors.rs:359-372. -/
def maxO (a : Loc O) : Option (Loc O) → Loc O
  | none => a
  | some b => a.max b

/-- Does `a.max(opt)` panic? Reaches src/errors.rs:370. -/
def clashO (a : Loc O) : Option (Loc O) → Bool
  | none => false
  | some b => a.clash b

end Loc

/-- `merge_alts` for an optional second error: keeps the further one
(`b.max(a)`). Calls src/errors.rs:359-372. -/
def mergeAlts {O : Type} : Option (Loc O) → Option (Loc O) → Option (Loc O)
  | some a, some b => some (b.max a)
  | none, b => b
  | a, none => a

/-- Does `merge_alts` panic? Reaches src/errors.rs:370. -/
def clashAlts {O : Type} : Option (Loc O) → Option (Loc O) → Bool
  | some a, some b => b.clash a
  | _, _ => false

/-- `merge_alts` with a list of errors. Calls src/errors.rs:359-372. -/
def mergeAltsL {O : Type} (a : Option (Loc O)) (l : List (Loc O)) : Option (Loc O) :=
  l.foldl (fun acc b => mergeAlts acc (some b)) a

/-- Does `merge_alts` with a list panic? Reaches src/errors.rs:370. -/
def clashAltsL {O : Type} : Option (Loc O) → List (Loc O) → Bool
  | _, [] => false
  | a, b :: l => clashAlts a (some b) || clashAltsL (mergeAlts a (some b)) l

/-- `PResult` together with the stream afterwards and the panic flag. Used for src/wrappers.rs:13-24
(the results of the parsers run there). -/
structure PRes (O α : Type) where
  panicked : Bool
  errs : List (Loc O)
  out : Except (Loc O) (α × Option (Loc O))
  rest : List (Tok O)

/-- A parser: the end-of-input span, the remaining tokens, the result. Used for src/grammar.rs:43-48
(`impl Parser<char, (), Error = ..>`, the type of every rule). -/
abbrev P (O α : Type) := Sp O → List (Tok O) → PRes O α

variable {O α β γ : Type}

/-- `stream.span_since(start)`: from the start of the first token at `start` to
the end of the last consumed token (of the token at `start` if nothing has been
consumed; the end-of-input span if there is none). Used for src/grammar.rs:136, 164, 221, 244, 269,
303, 391, 470, 518 (the `span` given to the closures). -/
def spanSince (eoi : Sp O) (start stop : List (Tok O)) : Sp O :=
  let b := match start with
    | t :: _ => t.2.start
    | [] => eoi.start
  let e := match start[start.length - stop.length - 1]? with
    | some t => t.2.stop
    | none => eoi.stop
  ⟨b, e⟩

/-- A successful result without alternative error. Used for src/grammar.rs:45, 64 (the result of the
primitive parsers). -/
def pok (a : α) (s : List (Tok O)) : PRes O α := ⟨false, [], .ok (a, none), s⟩

/-- A failure at the token list `s` that leaves the stream at `t`. Used for src/grammar.rs:45, 64 (the
result of the primitive parsers). -/
def pfail (s : List (Tok O)) (e : PErr O) (t : List (Tok O)) : PRes O α :=
  ⟨false, [], .error ⟨s.length, e⟩, t⟩

/-- `just(c)` for a character. Used for src/grammar.rs:45, 51-58, 132, 156-162, 209, 220, 237-242, 263,
334-340, 353-360, 384, 395, 405, 429, 469, 515-517. -/
def just (c : Char) : P O Char := fun eoi s =>
  match s with
  | (x, sp) :: t =>
    if x = c then pok c t else pfail s (.expectedFound sp [some c] (some x)) t
  | [] => pfail [] (.expectedFound eoi [some c] none) []

/-- `just("...")` for a string, matched character by character. Used for src/grammar.rs:134, 313-320. -/
def justStr : Str → P O Unit
  | [] => fun _ s => pok () s
  | c :: cs => fun eoi s =>
    match s with
    | (x, sp) :: t =>
      if x = c then justStr cs eoi t
      else pfail s (.expectedFound sp [some c] (some x)) t
    | [] => pfail [] (.expectedFound eoi [some c] none) []

/-- `filter(pred)`. Used for src/grammar.rs:64, 74, 88, 103, 239, 326, 330. -/
def filter (f : Char → Bool) : P O Char := fun eoi s =>
  match s with
  | (x, sp) :: t => if f x then pok x t else pfail s (.expectedFound sp [] (some x)) t
  | [] => pfail [] (.expectedFound eoi [] none) []

/-- `filter_map(f)`. Used for src/grammar.rs:195, 210. -/
def filterMap (f : Sp O → Char → Except (PErr O) α) : P O α := fun eoi s =>
  match s with
  | (x, sp) :: t =>
    match f sp x with
    | .ok a => pok a t
    | .error e => pfail s e t
  | [] => pfail [] (.expectedFound eoi [] none) []

/-- `none_of(c)`. Used for src/grammar.rs:131-132. -/
def noneOf (c : Char) : P O Char := filter (fun x => x != c)

/-- `end()`. Used for src/grammar.rs:124, 405, 594. -/
def endP : P O Unit := fun _ s =>
  match s with
  | (x, sp) :: t => pfail s (.expectedFound sp [none] (some x)) t
  | [] => pok () []

/-- `.map(f)`. Used for src/grammar.rs:157, 181, 243, 269, 297-299, 341, 357-363, 377, 384, 416-421,
482, 494, 502, 551, 581, 594. -/
def pmap (f : α → β) (p : P O α) : P O β := fun eoi s =>
  let r := p eoi s
  ⟨r.panicked, r.errs, match r.out with
    | .ok (a, alt) => .ok (f a, alt)
    | .error e => .error e, r.rest⟩

/-- `.ignored()`. Used for src/grammar.rs:47, 59, 70, 118, 124, 131-133, 163, 405. -/
def ignored (p : P O α) : P O Unit := pmap (fun _ => ()) p

/-- `.map_err(f)`: only the fatal error is changed. Used for src/grammar.rs:46, 60, 84, 99, 114, 119, 314-320. -/
def mapErr (f : PErr O → PErr O) (p : P O α) : P O α := fun eoi s =>
  let r := p eoi s
  ⟨r.panicked, r.errs, match r.out with
    | .ok x => .ok x
    | .error e => .error ⟨e.rem, f e.err⟩, r.rest⟩

/-- `.map_err_with_span(f)`. Used for src/grammar.rs:136, 164, 244, 518. -/
def mapErrWithSpan (f : PErr O → Sp O → PErr O) (p : P O α) : P O α := fun eoi s =>
  let r := p eoi s
  ⟨r.panicked, r.errs, match r.out with
    | .ok x => .ok x
    | .error e => .error ⟨e.rem, f e.err (spanSince eoi s r.rest)⟩, r.rest⟩

/-- `.map_with_span(f)`. Used for src/grammar.rs:391. -/
def mapWithSpan (f : α → Sp O → β) (p : P O α) : P O β := fun eoi s =>
  let r := p eoi s
  ⟨r.panicked, r.errs, match r.out with
    | .ok (a, alt) => .ok (f a (spanSince eoi s r.rest), alt)
    | .error e => .error e, r.rest⟩

/-- `.try_map(f)`: the error is located at the stream position after the inner
parser, the alternative error is dropped. Used for src/grammar.rs:221, 269, 303, 430. -/
def tryMap (f : α → Sp O → Except (PErr O) β) (p : P O α) : P O β := fun eoi s =>
  let r := p eoi s
  ⟨r.panicked, r.errs, match r.out with
    | .ok (a, alt) =>
      match f a (spanSince eoi s r.rest) with
      | .ok b => .ok (b, alt)
      | .error e => .error ⟨r.rest.length, e⟩
    | .error e => .error e, r.rest⟩

/-- `.validate(f)` where `f` may emit errors; located after the inner parser. Used for src/grammar.rs:470. -/
def validate (f : α → Sp O → List (PErr O)) (p : P O α) : P O α := fun eoi s =>
  let r := p eoi s
  match r.out with
  | .ok (a, alt) =>
    ⟨r.panicked,
     r.errs ++ (f a (spanSince eoi s r.rest)).map (fun e => ⟨r.rest.length, e⟩),
     .ok (a, alt), r.rest⟩
  | .error e => ⟨r.panicked, r.errs, .error e, r.rest⟩

/-- `.then_with(f)`: run the second parser after the first. Used for src/grammar.rs:159 (`then_with`;
the other ways to run two parsers in turn are made of it). -/
def bind (p : P O α) (f : α → P O β) : P O β := fun eoi s =>
  let r1 := p eoi s
  match r1.out with
  | .error e => ⟨r1.panicked, r1.errs, .error e, r1.rest⟩
  | .ok (a, alt1) =>
    let r2 := f a eoi r1.rest
    match r2.out with
    | .error e =>
      ⟨r1.panicked || r2.panicked || e.clashO alt1, r1.errs ++ r2.errs, .error (e.maxO alt1), r2.rest⟩
    | .ok (b, alt2) =>
      ⟨r1.panicked || r2.panicked || clashAlts alt1 alt2, r1.errs ++ r2.errs,
       .ok (b, mergeAlts alt1 alt2), r2.rest⟩

/-- `.then(q)`. Used for src/grammar.rs:124, 355, 415, 429, 469, 537-550, 578. -/
def seq (p : P O α) (q : P O β) : P O (α × β) := bind p (fun a => pmap (fun b => (a, b)) q)
/-- `.ignore_then(q)`. Used for src/grammar.rs:47, 53, 157, 162, 209, 238, 240, 356-360, 396-397, 429,
469, 500-501, 516, 541, 545. -/
def ignoreThen (p : P O α) (q : P O β) : P O β := bind p (fun _ => q)
/-- `.then_ignore(q)`. Used for src/grammar.rs:132, 158, 242, 354, 517, 546, 550, 577, 594. -/
def thenIgnore (p : P O α) (q : P O β) : P O α := bind p (fun a => pmap (fun _ => a) q)
/-- `.delimited_by(l, r)`. Used for src/grammar.rs:134, 220, 384. -/
def delimitedBy (p : P O α) (l : P O β) (r : P O γ) : P O α := thenIgnore (ignoreThen l p) r

/-- The error or alternative error of a result. Used for src/grammar.rs:54-58 (inside `.or`). -/
def PRes.altOrErr (r : PRes O α) : Option (Loc O) :=
  match r.out with
  | .ok (_, alt) => alt
  | .error e => some e

/-- The choice between two results, neither of which is a success without
emitted errors.  Returns true if the first is preferred. Used for src/grammar.rs:54-58 (inside `.or`). -/
def preferA (a b : PRes O α) : Bool :=
  -- compare two optional positions: some true = a further, some false = b further
  let cmp (x y : Option (Loc O)) : Option Bool :=
    match x, y with
    | some x, some y => if x.rem < y.rem then some true else if y.rem < x.rem then some false else none
    | _, _ => none
  match a.out, b.out with
  | .ok (_, aalt), .ok (_, balt) =>
    match cmp a.errs.getLast? b.errs.getLast? with
    | some r => r
    | none => match cmp aalt balt with
      | some r => r
      | none => a.errs.length ≤ b.errs.length
  | .ok _, .error _ => true
  | .error _, .ok _ => false
  | .error ea, .error eb =>
    match cmp (some ea) (some eb) with
    | some r => r
    | none => match cmp a.errs.getLast? b.errs.getLast? with
      | some r => r
      | none => a.errs.length ≤ b.errs.length

/-- Take result `a`, remembering the error of the other alternative `b`. Used for src/grammar.rs:54-58
(inside `.or`). -/
def takeA (a b : PRes O α) : PRes O α :=
  match a.out with
  | .ok (x, alt) =>
    ⟨a.panicked || b.panicked || clashAlts alt b.altOrErr, a.errs, .ok (x, mergeAlts alt b.altOrErr), a.rest⟩
  | .error e =>
    ⟨a.panicked || b.panicked || e.clashO b.altOrErr, a.errs, .error (e.maxO b.altOrErr), a.rest⟩

/-- Is this a success without emitted errors? Used for src/grammar.rs:54-58 (inside `.or`). -/
def PRes.clean (r : PRes O α) : Bool :=
  r.errs.isEmpty && match r.out with
    | .ok _ => true
    | .error _ => false

/-- `.or(q)`. Used for src/grammar.rs:54-58, 118, 124, 187, 209, 240, 263, 334-340, 353, 372, 397, 401,
421, 503, 507. -/
def orP (p q : P O α) : P O α := fun eoi s =>
  let a := p eoi s
  if a.clean then a
  else
    let b := q eoi s
    if b.clean then
      match b.out with
      | .ok (x, alt) =>
        ⟨a.panicked || b.panicked || clashAlts alt a.altOrErr, [], .ok (x, mergeAlts alt a.altOrErr), b.rest⟩
      | .error e => ⟨a.panicked || b.panicked, b.errs, .error e, b.rest⟩ -- not clean, unreachable
    else if preferA a b then takeA a b else takeA b a

/-- `choice((p, q, ...))`: the first success wins (also with emitted errors);
emitted errors of failed alternatives are dropped. Used for src/grammar.rs:129, 264, 295, 312, 355,
376, 405, 428. -/
def choiceGo (alt : Option (Loc O)) (pan : Bool) : List (P O α) → P O α
  | [] => fun eoi s => match alt with
    | some e => ⟨pan, [], .error e, s⟩
    | none => ⟨true, [], .error ⟨s.length, .expectedFound eoi [] none⟩, s⟩ -- empty choice
  | p :: ps => fun eoi s =>
    let r := p eoi s
    match r.out with
    | .ok x => ⟨pan || r.panicked, r.errs, .ok x, r.rest⟩
    | .error e =>
      choiceGo (mergeAlts alt (some e)) (pan || r.panicked || clashAlts alt (some e)) ps eoi s

/-- `choice((p, q, ...))`. Used for src/grammar.rs:129, 264, 295, 312, 355, 376, 405, 428. -/
def choice (ps : List (P O α)) : P O α := choiceGo none false ps

/-- `.or_not()`. Used for src/grammar.rs:52, 334-340, 353, 429, 469, 536, 547-549, 577. -/
def orNot (p : P O α) : P O (Option α) := fun eoi s =>
  let r := p eoi s
  match r.out with
  | .ok (a, alt) => ⟨r.panicked, r.errs, .ok (some a, alt), r.rest⟩
  | .error e => ⟨r.panicked, [], .ok (none, some e), s⟩

/-- `.rewind()`. Used for src/grammar.rs:132. -/
def rewind (p : P O α) : P O α := fun eoi s =>
  let r := p eoi s
  match r.out with
  | .ok x => ⟨r.panicked, r.errs, .ok x, s⟩
  | .error e => ⟨r.panicked, r.errs, .error e, r.rest⟩

/-- Loop of `.repeated().at_least(min).at_most(max)`; the first argument is
fuel (the length of the input plus one).  An iteration that succeeds without
consuming input makes the real code panic. Used for src/grammar.rs:118, 133, 157, 162, 217-219, 241,
265-267, 330, 396, 500, 540-546, 577-579. -/
def repGo (p : P O α) (min : Nat) (max : Option Nat) (eoi : Sp O) :
    Nat → List α → List (Loc O) → Option (Loc O) → Bool → List (Tok O) → PRes O (List α)
  | 0, outs, errs, alt, _, s => ⟨true, errs, .ok (outs, alt), s⟩
  | fuel + 1, outs, errs, alt, pan, s =>
    if max = some outs.length then ⟨pan, errs, .ok (outs, alt), s⟩
    else
      let r := p eoi s
      match r.out with
      | .ok (a, aalt) =>
        if r.rest.length < s.length then
          repGo p min max eoi fuel (outs ++ [a]) (errs ++ r.errs) (mergeAlts alt aalt)
            (pan || r.panicked || clashAlts alt aalt) r.rest
        else ⟨true, errs ++ r.errs, .ok (outs ++ [a], mergeAlts alt aalt), r.rest⟩
      | .error e =>
        if outs.length < min then
          ⟨pan || r.panicked, errs ++ r.errs, .error e, r.rest⟩
        else
          let inner := mergeAlts (some e) r.errs.head?
          ⟨pan || r.panicked || clashAlts (some e) r.errs.head? || clashAlts alt inner, errs,
           .ok (outs, mergeAlts alt inner), s⟩

/-- `.repeated().at_least(min).at_most(max)`. Used for src/grammar.rs:118, 162, 217-219, 266, 540. -/
def repeatedB (min : Nat) (max : Option Nat) (p : P O α) : P O (List α) := fun eoi s =>
  repGo p min max eoi (s.length + 1) [] [] none false s

/-- `.repeated()`. Used for src/grammar.rs:133, 157, 241, 265-267, 330, 396, 500, 542-546, 577-579. -/
def repeated (p : P O α) : P O (List α) := repeatedB 0 none p

/-- Loop of `take_until(p)`; the first argument is fuel. Used for src/grammar.rs:124, 160. -/
def takeUntilGo (p : P O β) (eoi : Sp O) :
    Nat → List Char → Option (Loc O) → Bool → List (Tok O) → PRes O (List Char × β)
  | 0, _, _, _, s => ⟨true, [], .error ⟨s.length, .expectedFound eoi [] none⟩, s⟩
  | fuel + 1, outs, alt, pan, s =>
    let r := p eoi s
    match r.out with
    | .ok (b, balt) =>
      ⟨pan || r.panicked || clashAlts alt balt, r.errs, .ok ((outs, b), mergeAlts alt balt), r.rest⟩
    | .error e =>
      match s with
      | [] => ⟨pan || r.panicked, r.errs, .error e, []⟩
      | (c, _) :: t =>
        takeUntilGo p eoi fuel (outs ++ [c]) (mergeAlts alt (some e))
          (pan || r.panicked || clashAlts alt (some e)) t

/-- `take_until(p)`. Used for src/grammar.rs:124, 160. -/
def takeUntil (p : P O β) : P O (List Char × β) := fun eoi s =>
  takeUntilGo p eoi (s.length + 1) [] none false s

/-- The stream at the first token whose character is in `until`. Used for src/grammar.rs:233. -/
def skipTo (until_ : List Char) : List (Tok O) → Option (List (Tok O))
  | [] => none
  | t :: ts => if until_.contains t.1 then some (t :: ts) else skipTo until_ ts

/-- `.recover_with(skip_until(until, fallback))`: on failure skip (from where
the parser started) to one of the characters without consuming it, record the
error and return the fallback; if there is no such character, fail. Used for src/grammar.rs:233. -/
def recoverSkipUntil (until_ : List Char) (fallback : α) (p : P O α) : P O α := fun eoi s =>
  let r := p eoi s
  match r.out with
  | .ok x => ⟨r.panicked, r.errs, .ok x, r.rest⟩
  | .error e =>
    match skipTo until_ s with
    | some t => ⟨r.panicked, r.errs ++ [e], .ok (fallback, none), t⟩
    | none => ⟨r.panicked, r.errs, .error e, []⟩

/-- Loop of `.separated_by(delim)` after a successful item; returns the outputs,
errors, alternative, panic flag, the stream after the last item, and the error
that ended the loop. Used for src/grammar.rs:579-580. -/
def sepGo (item : P O α) (delim : P O β) (eoi : Sp O) :
    Nat → List α → List (Loc O) → Option (Loc O) → Bool → List (Tok O) →
    List α × List (Loc O) × Option (Loc O) × Bool × List (Tok O) × Option (Loc O)
  | 0, outs, errs, alt, _, s => (outs, errs, alt, true, s, none)
  | fuel + 1, outs, errs, alt, pan, s =>
    let d := delim eoi s
    match d.out with
    | .error e => (outs, errs ++ d.errs, alt, pan || d.panicked, s, some e)
    | .ok (_, dalt) =>
      let i := item eoi d.rest
      match i.out with
      | .error e =>
        (outs, errs ++ d.errs ++ i.errs, mergeAlts alt dalt,
         pan || d.panicked || i.panicked || clashAlts alt dalt, s, some e)
      | .ok (a, ialt) =>
        if i.rest.length < s.length then
          sepGo item delim eoi fuel (outs ++ [a]) (errs ++ d.errs ++ i.errs)
            (mergeAlts (mergeAlts alt dalt) ialt)
            (pan || d.panicked || i.panicked || clashAlts alt dalt || clashAlts (mergeAlts alt dalt) ialt)
            i.rest
        else -- no progress: the real loop would not terminate
          (outs, errs, alt, true, s, none)

/-- Optional delimiter (leading or trailing): the new stream, alternative and
panic flag.  Errors emitted by it only count as alternatives. Used for src/grammar.rs:579-580. -/
def sepDelim (delim : P O β) (eoi : Sp O) (alt : Option (Loc O)) (s : List (Tok O)) :
    Option (Loc O) × Bool × List (Tok O) :=
  let d := delim eoi s
  match d.out with
  | .ok (_, dalt) =>
    (mergeAlts alt (mergeAltsL dalt d.errs),
     d.panicked || clashAltsL dalt d.errs || clashAlts alt (mergeAltsL dalt d.errs), d.rest)
  | .error e =>
    (mergeAlts alt (mergeAltsL (some e) d.errs),
     d.panicked || clashAltsL (some e) d.errs || clashAlts alt (mergeAltsL (some e) d.errs), s)

/-- `.separated_by(delim).allow_leading().allow_trailing()`. Used for src/grammar.rs:579-580. -/
def separatedBy (item : P O α) (delim : P O β) : P O (List α) := fun eoi s =>
  let (alt0, pan0, s0) := sepDelim delim eoi none s
  let i := item eoi s0
  match i.out with
  | .error e =>
    -- no items: nothing trailing is consumed
    ⟨pan0 || i.panicked || clashAlts alt0 (some e), i.errs, .ok ([], mergeAlts alt0 (some e)), s0⟩
  | .ok (a, ialt) =>
    let (outs, errs, alt, pan, s1, err) :=
      sepGo item delim eoi (i.rest.length + 1) [a] i.errs (mergeAlts alt0 ialt)
        (pan0 || i.panicked || clashAlts alt0 ialt) i.rest
    let (alt', pan', s2) := sepDelim delim eoi alt s1
    ⟨pan || pan' || clashAlts alt' err, errs, .ok (outs, mergeAlts alt' err), s2⟩

/-- A rule whose recursion bound was exceeded (proved impossible): flagged as a panic. Used for
src/grammar.rs:128, 513 (`recursive`). -/
def tooDeep : P O α := fun eoi s => ⟨true, [], .error ⟨s.length, .expectedFound eoi [] none⟩, s⟩

/-- `parser.parse(stream)`: `Ok` only if no error at all was recorded, otherwise
all emitted errors followed by the fatal one.  `none` is a panic. Used for src/wrappers.rs:17. -/
def runParser (p : P O α) (eoi : Sp O) (s : List (Tok O)) : Option (Except (List (PErr O)) α) :=
  let r := p eoi s
  if r.panicked then none
  else match r.out with
    | .ok (a, _) => if r.errs.isEmpty then some (.ok a) else some (.error (r.errs.map (·.err)))
    | .error e => some (.error ((r.errs ++ [e]).map (·.err)))

end Knuffel
