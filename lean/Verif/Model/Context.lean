import Verif.Model.Decode
/-!
# The extension map of the decoding context

Models `Context::new`, `set` and `get` of `src/decode.rs`.
-/

namespace Knuffel

/-- `TypeId` (std). Used for src/decode.rs:186, 192. -/
abbrev TypeId := Nat

/-- `Box<dyn Any>` (std): a value together with the id of its type; `T` gives
the type for every id. Used for src/decode.rs:21. -/
structure AnyBox (T : TypeId → Type) where
  id : TypeId
  val : T id

/-- `downcast_ref` (std). Used for src/decode.rs:193. -/
def AnyBox.downcast {T : TypeId → Type} (b : AnyBox T) (id : TypeId) : Option (T id) :=
  if h : b.id = id then some (h ▸ b.val) else none

/-- `HashMap<TypeId, Box<dyn Any>>`. src/decode.rs:21. An association list with
distinct keys. -/
abbrev Extensions (T : TypeId → Type) := List (TypeId × AnyBox T)

namespace Extensions
variable {T : TypeId → Type}
/-- `HashMap::insert` (std). Used for src/decode.rs:186. -/
def insert (m : Extensions T) (k : TypeId) (v : AnyBox T) : Extensions T :=
  match m with
  | [] => [(k, v)]
  | (k', v') :: rest => if k' = k then (k, v) :: rest else (k', v') :: insert rest k v
/-- `HashMap::get` (std). Used for src/decode.rs:192. -/
def get? (m : Extensions T) (k : TypeId) : Option (AnyBox T) :=
  match m with
  | [] => none
  | (k', v') :: rest => if k' = k then some v' else get? rest k
end Extensions

namespace Ctx
variable {T : TypeId → Type} {S : Type}
/-- `Context::new`. src/decode.rs:153-158. -/
def new : Ctx (Extensions T) S := ⟨[], []⟩
/-- `Context::set`. src/decode.rs:185-187. -/
def set (c : Ctx (Extensions T) S) (id : TypeId) (v : T id) : Ctx (Extensions T) S :=
  { c with extensions := c.extensions.insert id ⟨id, v⟩ }
/-- `Context::get`. src/decode.rs:191-194. -/
def get (c : Ctx (Extensions T) S) (id : TypeId) : Option (T id) :=
  (c.extensions.get? id).bind fun b => b.downcast id
end Ctx

end Knuffel
