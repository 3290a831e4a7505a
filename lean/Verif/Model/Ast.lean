import Verif.Model.Errors
/-!
# Abstract syntax

Models `src/ast.rs`.
-/

namespace Knuffel

/-- src/ast.rs:62-71. -/
inductive Radix where
  | bin | hex | oct | dec
deriving DecidableEq, Repr

/-- src/ast.rs:117-144. -/
inductive BuiltinType where
  | u8 | i8 | u16 | i16 | u32 | i32 | u64 | i64 | usize | isize | f32 | f64 | base64
deriving DecidableEq, Repr

/-- `TypeName` with its private `TypeNameInner`. src/ast.rs:106-112. -/
inductive TypeName where
  | builtin (t : BuiltinType)
  | custom (s : Str)
deriving DecidableEq, Repr

/-- src/ast.rs:149-177, with `Integer` (76) and `Decimal` (87) inlined. -/
inductive Literal where
  | null
  | bool (b : Bool)
  | int (radix : Radix) (digits : Str)
  | decimal (text : Str)
  | string (s : Str)
deriving DecidableEq, Repr

/-- src/ast.rs:95-102. -/
structure Value (S : Type) where
  typeName : Option (Spanned TypeName S)
  literal : Spanned Literal S
deriving DecidableEq, Repr

/-- `Node`. src/ast.rs:32-48.  `BTreeMap<SpannedName, Value>` is a list sorted
by key.  The constructor argument order is that of the Rust fields. -/
inductive Node (S : Type) where
  | mk (typeName : Option (Spanned TypeName S))
       (nodeName : Spanned Str S)
       (arguments : List (Value S))
       (properties : List (Spanned Str S × Value S))
       (children : Option (Spanned (List (Spanned (Node S) S)) S))
deriving Repr

/-- src/ast.rs:27. -/
abbrev SpannedNode (S : Type) := Spanned (Node S) S

namespace Node
variable {S : Type}
/-- src/ast.rs:35 -/
def typeName : Node S → Option (Spanned TypeName S) | mk t _ _ _ _ => t
/-- src/ast.rs:38 -/
def nodeName : Node S → Spanned Str S | mk _ n _ _ _ => n
/-- src/ast.rs:41 -/
def arguments : Node S → List (Value S) | mk _ _ a _ _ => a
/-- src/ast.rs:44 -/
def properties : Node S → List (Spanned Str S × Value S) | mk _ _ _ p _ => p
/-- src/ast.rs:47 -/
def children : Node S → Option (Spanned (List (SpannedNode S)) S) | mk _ _ _ _ c => c
/-- The accessor `Node::children()`. src/ast.rs:181-186. -/
def childNodes (n : Node S) : List (SpannedNode S) :=
  match n.children with
  | some c => c.value
  | none => []
end Node

/-- src/ast.rs:53-57. -/
structure Document (S : Type) where
  nodes : List (SpannedNode S)
deriving Repr

/-- src/ast.rs:192-209. -/
def BuiltinType.asStr : BuiltinType → Str
  | .u8 => "u8".toList
  | .i8 => "i8".toList
  | .u16 => "u16".toList
  | .i16 => "i16".toList
  | .u32 => "u32".toList
  | .i32 => "i32".toList
  | .u64 => "u64".toList
  | .i64 => "i64".toList
  | .usize => "usize".toList
  | .isize => "isize".toList
  | .f32 => "f32".toList
  | .f64 => "f64".toList
  | .base64 => "base64".toList

/-- src/ast.rs:248-264; `none` is `Err(())`. -/
def BuiltinType.fromStr (s : Str) : Option BuiltinType :=
  if s = "u8".toList then some .u8
  else if s = "i8".toList then some .i8
  else if s = "u16".toList then some .u16
  else if s = "i16".toList then some .i16
  else if s = "u32".toList then some .u32
  else if s = "i32".toList then some .i32
  else if s = "u64".toList then some .u64
  else if s = "i64".toList then some .i64
  else if s = "f32".toList then some .f32
  else if s = "f64".toList then some .f64
  else if s = "base64".toList then some .base64
  else none

/-- src/ast.rs:211-213. -/
def BuiltinType.asType (t : BuiltinType) : TypeName := .builtin t

namespace TypeName
/-- `TypeName::from_string` src/ast.rs:217-224, and `FromStr` src/ast.rs:267-276
(same function; the `Err` type is empty). -/
def fromString (s : Str) : TypeName :=
  match BuiltinType.fromStr s with
  | some b => .builtin b
  | none => .custom s
/-- src/ast.rs:226-231. -/
def asStr : TypeName → Str
  | builtin t => t.asStr
  | custom s => s
/-- src/ast.rs:238-243. -/
def asBuiltin : TypeName → Option BuiltinType
  | builtin t => some t
  | custom _ => none
end TypeName

/-- `BTreeMap::insert` for `BTreeMap<SpannedName, Value>` (src/ast.rs:44): the
order and equality of keys ignore spans (src/span.rs:355-373); when the key is
present the *old* key object is kept and the value replaced (std). -/
def propInsert {S : Type} (k : Spanned Str S) (v : Value S) :
    List (Spanned Str S × Value S) → List (Spanned Str S × Value S)
  | [] => [(k, v)]
  | (k', v') :: rest =>
    if k.value = k'.value then (k', v) :: rest
    else if strLt k.value k'.value then (k, v) :: (k', v') :: rest
    else (k', v') :: propInsert k v rest

end Knuffel
