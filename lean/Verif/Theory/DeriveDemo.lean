import Verif.Theory.DerivePart
import Verif.Model.Convert
/-!
# A struct with fields of every kind

Used to show that the hypotheses of the theorems about derived structs can be met.
-/

namespace Knuffel.Demo
open Knuffel

/-- Nothing is base64, names are not changed. -/
scoped instance ext : Externals where
  b64 _ := .error []
  kebab s := s

/-- Implementations for a field of type `i64`; children give the number of their arguments. -/
def num : Impls Unit Nat Int where
  scalar := { typeCheck := (intScalar 64 .i64).typeCheck
              rawDecode := fun v => do let x ← (intScalar 64 .i64).rawDecode v; pure (.leaf x)
              decode := fun v => do let x ← (intScalar 64 .i64).decode v; pure (.leaf x) }
  node n := pure (.leaf n.value.arguments.length)
  part := ⟨fun x _ => pure (false, x), fun x _ _ => pure (false, x)⟩
  fromStr s := .ok (.leaf s.length)
  fromBytes _ := .error []
  keyFromStr s := .ok (.leaf s.length)
  span s c := (.leaf s, c)
  default := .leaf 0

theorem num_keeps : num.Keeps where
  scalar v := by
    refine Keeps.bind ?_ fun _ => Keeps.pure _
    refine Keeps.bind ?_ fun _ => ?_
    · unfold numTypeCheck
      split
      · exact Keeps.ite (Keeps.emit _) (Keeps.pure _)
      · exact Keeps.pure _
    · dsimp only
      split
      · split
        · exact Keeps.pure _
        · exact (Keeps.emit _).bind fun _ => Keeps.pure _
      · exact (Keeps.emit _).bind fun _ => Keeps.pure _
  node _ := Keeps.pure _
  insertChild _ _ := Keeps.pure _
  insertProperty _ _ _ := Keeps.pure _
  span _ _ := List.prefix_rfl

/-- The name of a field. -/
def fld (c : Char) : AttrAccess := .named [c]

/-- A struct with an optional property `u`, an optional child `x` and a flag `y`. -/
def inner : Struct Unit Nat Int where
  properties := [⟨fld 'u', ['u'], true, .str, false, none, num⟩]
  children := [⟨fld 'x', ['x'], true, .normal, none, num.node, num⟩,
               ⟨fld 'y', ['y'], false, .bool, none, num.node, num⟩]

/-- Implementations for a field of type `inner`. -/
def innerImpls : Impls Unit Nat Int :=
  { num with part := inner.part, default := .record [(fld 'u', .none), (fld 'x', .none), (fld 'y', .bool false)] }

theorem inner_keeps : inner.Keeps where
  spans := by simp [inner]
  nodeNames := by simp [inner]
  typeNames := by simp [inner]
  arguments := by simp [inner]
  varArgs := by simp [inner]
  properties := by simpa [inner] using num_keeps
  varProps := by simp [inner]
  children := by
    have := num_keeps
    simpa [inner] using ⟨num_keeps, num_keeps.node⟩
  varChildren := by simp [inner]

theorem innerImpls_keeps : innerImpls.Keeps where
  scalar := num_keeps.scalar
  node := num_keeps.node
  insertChild x n := Keeps.insertChildArms n _ x inner_keeps.children
  insertProperty x n v := Keeps.insertPropertyArms n v _ x inner_keeps.properties
  span := num_keeps.span

/-- A struct with fields of every kind. -/
def outer : Struct Unit Nat Int where
  spans := [⟨fld 's', num⟩]
  nodeNames := [⟨fld 'n', num⟩]
  typeNames := [⟨fld 't', true, num⟩]
  arguments := [⟨fld 'a', false, .normal, none, num⟩, ⟨fld 'b', false, .normal, some (.leaf 9), num⟩]
  varArgs := some ⟨fld 'r', .normal, num⟩
  properties := [⟨fld 'p', ['p'], false, .normal, false, none, num⟩, ⟨fld 'q', ['q'], true, .str, false, none, num⟩,
                 ⟨fld 'f', [], false, .normal, true, none, innerImpls⟩]
  varProps := some ⟨fld 'z', .normal, num⟩
  children := [⟨fld 'c', ['c'], false, .normal, none, num.node, num⟩, ⟨fld 'm', ['m'], false, .multi, none, num.node, num⟩,
               ⟨fld 'v', ['v'], false, .bool, none, num.node, num⟩, ⟨fld 'g', [], false, .flatten, none, num.node, innerImpls⟩]
  varChildren := some ⟨fld 'w', num.node⟩
  extraFields := [⟨fld 'e', false, num⟩]

theorem outer_keeps : outer.Keeps where
  spans := by simpa [outer] using num_keeps
  nodeNames := by simpa [outer] using num_keeps
  typeNames := by simpa [outer] using num_keeps
  arguments := by simpa [outer] using num_keeps
  varArgs := by simpa [outer] using num_keeps
  properties := by simpa [outer] using ⟨num_keeps, innerImpls_keeps⟩
  varProps := by simpa [outer] using num_keeps
  children := by simpa [outer] using ⟨⟨num_keeps, num_keeps.node⟩, innerImpls_keeps, num_keeps.node⟩
  varChildren := by simpa [outer] using num_keeps.node

theorem outer_fields : outer.allFields.Nodup := by decide

/-- Which field takes which properties. -/
def takesProp (p : Prop' Unit Nat Int) (n : Str) : Bool := if p.flatten then n = ['u'] else n = p.name
/-- Which field takes which children. -/
def takesChild (p : Child Unit Nat Int) (n : Str) : Bool :=
  if p.mode = .flatten then n = ['x'] || n = ['y'] else n = p.name

theorem inner_takesProps : inner.part.TakesProps (fun n => n = ['u']) := by
  have : inner.PropNames takesProp := by
    intro p hp
    simp only [inner, List.mem_singleton] at hp
    subst hp
    intro n; rfl
  have h := inner.part_takesProps this
  have e : (fun n => inner.properties.any fun p => takesProp p n) = fun n => decide (n = ['u']) := by
    funext n
    simp [inner, takesProp]
  rwa [e] at h

theorem inner_childNames : inner.ChildNames takesChild := by
  intro p hp
  simp only [inner, List.mem_cons, List.not_mem_nil, or_false] at hp
  rcases hp with rfl | rfl <;> intro n <;> rfl

theorem inner_takesChildren : inner.part.TakesChildren (fun n => n = ['x'] || n = ['y']) := by
  have h := inner.part_takesChildren inner_childNames
  have e : (fun n => inner.children.any fun p => takesChild p n) = fun n => (decide (n = ['x']) || decide (n = ['y'])) := by
    funext n
    simp [inner, takesChild]
  rwa [e] at h

theorem outer_propNames : outer.PropNames takesProp := by
  intro p hp
  simp only [outer, List.mem_cons, List.not_mem_nil, or_false] at hp
  rcases hp with rfl | rfl | rfl
  · intro n; rfl
  · intro n; rfl
  · exact inner_takesProps

theorem outer_childNames : outer.ChildNames takesChild := by
  intro p hp
  simp only [outer, List.mem_cons, List.not_mem_nil, or_false] at hp
  rcases hp with rfl | rfl | rfl | rfl
  · intro n; rfl
  · intro n; rfl
  · intro n; rfl
  · exact inner_takesChildren

/-- A decimal number without type. -/
def int (s : Str) : Value Nat := ⟨none, ⟨0, .int .dec s⟩⟩
/-- A text without type. -/
def str (s : Str) : Value Nat := ⟨none, ⟨0, .string s⟩⟩
/-- A node with arguments only. -/
def nd (name : Char) (args : List (Value Nat) := []) : SpannedNode Nat := ⟨0, .mk none ⟨0, [name]⟩ args [] none⟩

/-- The node
`k 1 2 3 4 p=5 u="ab" o=6 { c 1; m; m 7; v; y; x 1 2; other 5 }`. -/
def sample : SpannedNode Nat :=
  ⟨77, .mk none ⟨0, ['k']⟩ [int ['1'], int ['2'], int ['3'], int ['4']]
    [(⟨0, ['o']⟩, int ['6']), (⟨0, ['p']⟩, int ['5']), (⟨0, ['u']⟩, str ['a', 'b'])]
    (some ⟨0, [nd 'c' [int ['1']], nd 'm', nd 'm' [int ['7']], nd 'v', nd 'y', nd 'x' [int ['1'], int ['2']],
      ⟨0, .mk none ⟨0, ['o', 't', 'h', 'e', 'r']⟩ [int ['5']] [] none⟩]⟩)⟩

/-- What the sample is decoded to. -/
def sampleVal : FVal Int := .record
  [(fld 's', .leaf 77), (fld 'n', .leaf 1), (fld 't', .none), (fld 'a', .leaf 1), (fld 'b', .leaf 2),
   (fld 'r', .list [.leaf 3, .leaf 4]), (fld 'p', .leaf 5), (fld 'q', .none),
   (fld 'f', .record [(fld 'u', .some (.leaf 2)), (fld 'x', .none), (fld 'y', .bool false)]),
   (fld 'z', .pairs [(.leaf 1, .leaf 6)]),
   (fld 'c', .leaf 1), (fld 'm', .list [.leaf 0, .leaf 1]), (fld 'v', .bool true),
   (fld 'g', .record [(fld 'u', .none), (fld 'x', .some (.leaf 2)), (fld 'y', .bool true)]),
   (fld 'w', .list [.leaf 1]), (fld 'e', .leaf 0)]

theorem sample_ok : outer.node sample ⟨[], ()⟩ = .ok sampleVal ⟨[], ()⟩ := by rfl

end Knuffel.Demo
