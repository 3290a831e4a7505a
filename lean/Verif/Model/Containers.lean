import Verif.Model.Decode
/-!
# Containers

Models `src/containers.rs`.  `Box<T>`, `Rc<T>` and `Arc<T>` differ only in the
allocation they wrap the value in.  The value model keeps the pointer kind, so
that the wrapping is visible.
-/

namespace Knuffel

/-- `Box<T>`, `Arc<T>`, `Rc<T>` (std). Used for src/containers.rs:12-145. -/
inductive PtrKind where
  | box | arc | rc
deriving DecidableEq, Repr

/-- A freshly made smart pointer (std): `Box::new`, `Arc::new`, `Rc::new`.
`clones` counts further pointers to the same allocation. Used for src/containers.rs:12-145. -/
structure Ptr (α : Type) where
  kind : PtrKind
  value : α
  clones : Nat := 0

/-- `Box::new`, `Arc::new`, `Rc::new` (std). Used for src/containers.rs:16, 59, 105. -/
def Ptr.new {α : Type} (k : PtrKind) (a : α) : Ptr α := ⟨k, a, 0⟩

variable {E S α β : Type}

/-- Functor map over a decoding computation (`Result::map`). Used for src/containers.rs:16, 24, 59, 67, 105, 113. -/
def D.map (f : α → β) (x : D E S α) : D E S β := do
  let a ← x
  pure (f a)

/-- `Decode for Box<T>`, `Arc<T>`, `Rc<T>`. src/containers.rs:12-18, 55-61, 101-107. -/
def ptrNode (k : PtrKind) (d : NodeDecoder E S α) : NodeDecoder E S (Ptr α) :=
  fun node => (d node).map (Ptr.new k)

/-- `DecodeChildren for Box<T>`, `Arc<T>`, `Rc<T>`. src/containers.rs:20-26, 63-69, 109-115. -/
def ptrChildren (k : PtrKind) (d : ChildrenDecoder E S α) : ChildrenDecoder E S (Ptr α) :=
  fun nodes => (d nodes).map (Ptr.new k)

/-- `DerefMut` on a `Box`; `Arc::get_mut(..).expect(..)`, `Rc::get_mut(..).expect(..)`:
panics when the allocation is shared. src/containers.rs:32, 75-76, 121-122. -/
def Ptr.getMut (p : Ptr α) : D E S α :=
  match p.kind with
  | .box => pure p.value
  | _ => if p.clones = 0 then pure p.value else D.panic

/-- `DecodePartial for Box<T>`, `Arc<T>`, `Rc<T>`. src/containers.rs:28-41, 71-86, 117-132. -/
def ptrPartial (d : Partial E S α) : Partial E S (Ptr α) where
  insertChild p node := do
    let v ← p.getMut
    let r ← d.insertChild v node
    pure (r.1, { p with value := r.2 })
  insertProperty p name value := do
    let v ← p.getMut
    let r ← d.insertProperty v name value
    pure (r.1, { p with value := r.2 })

/-- `DecodeScalar for Box<T>`, `Arc<T>`, `Rc<T>`. src/containers.rs:43-53, 88-99, 134-145. -/
def ptrScalar (k : PtrKind) (d : Scalar E S α) : Scalar E S (Ptr α) :=
  Scalar.provided d.typeCheck fun value => (d.rawDecode value).map (Ptr.new k)

/-- The loop of `DecodeChildren for Vec<T>`. src/containers.rs:151-158. -/
def vecLoop (d : NodeDecoder E S α) : List (SpannedNode S) → List α → D E S (List α)
  | [], result => pure result
  | node :: rest, result => fun c =>
    match d node c with
    | .ok v c' => vecLoop d rest (result ++ [v]) c'
    | .err e c' => vecLoop d rest result (c'.emitError e)
    | .panic => .panic

/-- `DecodeChildren for Vec<T>`. src/containers.rs:147-160. -/
def vecChildren (d : NodeDecoder E S α) : ChildrenDecoder E S (List α) :=
  fun nodes => vecLoop d nodes []

/-- `DecodeScalar for Option<T>`. src/containers.rs:162-175. -/
def optionScalar (d : Scalar E S α) : Scalar E S (Option α) :=
  Scalar.provided d.typeCheck fun value =>
    match value.value with
    | .null => pure none
    | _ => (d.rawDecode value).map some

/-- `DecodeScalar for Spanned<T, Q>`. src/containers.rs:177-195. -/
def spannedScalar {Q : Type} (ds : SpanDecoder E S Q) (d : Scalar E S α) : Scalar E S (Spanned α Q) :=
  Scalar.provided d.typeCheck fun value => do
    let decoded ← d.rawDecode value
    let span ← ds.run value.span
    pure ⟨span, decoded⟩

end Knuffel
