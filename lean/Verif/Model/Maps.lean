import Verif.Model.Ast
/-!
# Comparison of spanned values, and maps keyed by them

Models the comparison traits of `Spanned` (`src/span.rs:336-383`) and, for the
lookups, the maps of the standard library: a `BTreeMap` is its entries in
increasing order and uses `Ord` only, a `HashMap` is its entries in some order
and uses `Hash` and `Eq` only.
-/

namespace Knuffel

/-- The implementations of `PartialEq`, `PartialOrd`, `Ord` and `Hash` of a type
(std).  `hash` is what `Hash::hash` does to the state of the hasher. Used for src/span.rs:355-383. -/
structure Cmp (H α : Type) where
  eq : α → α → Bool
  partialCmp : α → α → Option Ordering
  cmp : α → α → Ordering
  hash : α → H → H

namespace Spanned
variable {H α S : Type}

/-- `Borrow<T> for Spanned<T, S>`. src/span.rs:336-346 (the second
implementation there, for `Box<T>`, is the same since boxes are not
modelled). -/
def borrow (x : Spanned α S) : α := x.value

/-- The comparison traits of `Spanned<T, S>`. src/span.rs:355-383. -/
def cmps (c : Cmp H α) : Cmp H (Spanned α S) where
  eq x y := c.eq x.value y.value
  partialCmp x y := c.partialCmp x.value y.value
  cmp x y := c.cmp x.value y.value
  hash x s := c.hash x.value s

end Spanned

/-- The comparison traits of `str` (std): `Ord` is the order of the bytes, which
is the order of the code points; `h` is what hashing a string does. Used for src/ast.rs:44. -/
def strCmp {H : Type} (h : Str → H → H) : Cmp H Str where
  eq a b := decide (a = b)
  partialCmp a b := some (if a = b then .eq else if strLt a b then .lt else .gt)
  cmp a b := if a = b then .eq else if strLt a b then .lt else .gt
  hash := h

section
variable {H K Q W : Type}

/-- `BTreeMap::insert` (std): the key that is already there is kept. Used for src/ast.rs:44, src/grammar.rs:566. -/
def btreeInsert (c : Cmp H K) (k : K) (w : W) : List (K × W) → List (K × W)
  | [] => [(k, w)]
  | (k', w') :: rest =>
    match c.cmp k k' with
    | .lt => (k, w) :: (k', w') :: rest
    | .eq => (k', w) :: rest
    | .gt => (k', w') :: btreeInsert c k w rest

/-- `BTreeMap::get` (std): the key is borrowed as `Q` and compared there. Used for src/ast.rs:44. -/
def btreeGet (c : Cmp H Q) (borrow : K → Q) (q : Q) : List (K × W) → Option W
  | [] => none
  | (k', w') :: rest =>
    match c.cmp q (borrow k') with
    | .lt => none
    | .eq => some w'
    | .gt => btreeGet c borrow q rest

/-- `HashMap::insert` (std), with hasher state `h0`. Used for src/span.rs:377-383. -/
def hashInsert [DecidableEq H] (c : Cmp H K) (h0 : H) (k : K) (w : W) : List (K × W) → List (K × W)
  | [] => [(k, w)]
  | (k', w') :: rest =>
    if c.hash k h0 = c.hash k' h0 ∧ c.eq k k' = true then (k', w) :: rest
    else (k', w') :: hashInsert c h0 k w rest

/-- `HashMap::get` (std): the hash of the key is compared with that of the
entry (which was computed from the whole key), then the borrowed keys. Used for src/span.rs:336-346, 377-383. -/
def hashGet [DecidableEq H] (cq : Cmp H Q) (ck : Cmp H K) (borrow : K → Q) (h0 : H) (q : Q) : List (K × W) → Option W
  | [] => none
  | (k', w') :: rest =>
    if cq.hash q h0 = ck.hash k' h0 ∧ cq.eq q (borrow k') = true then some w'
    else hashGet cq ck borrow h0 q rest

end

end Knuffel
