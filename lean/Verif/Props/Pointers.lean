import Verif.Props.Labels
/-!
# Smart pointers around what is decoded from nodes

C62: `Box<T>`, `Arc<T>` and `Rc<T>` are decoded as `T`.
-/

namespace Knuffel
variable {E S α : Type}

/-- Something that is inserted into a partial struct. -/
inductive Insertion (S : Type) where
  | child (node : SpannedNode S)
  | property (name : Spanned Str S) (value : Value S)

/-- One insertion. -/
def Partial.insert (d : Partial E S α) (x : α) : Insertion S → D E S (Bool × α)
  | .child node => d.insertChild x node
  | .property name value => d.insertProperty x name value

/-- `Inserted d x c l bs y c'`: the insertions `l`, starting with the value `x`, are taken or not as the list `bs` says,
and leave the value `y`. -/
inductive Inserted (d : Partial E S α) : α → Ctx E S → List (Insertion S) → List Bool → α → Ctx E S → Prop where
  | nil {x c} : Inserted d x c [] [] x c
  | cons {x c i l b bs y z c' c''} : d.insert x i c = .ok (b, y) c' → Inserted d y c' l bs z c'' → Inserted d x c (i :: l) (b :: bs) z c''

/-- **C62** for nodes: the pointer is to what is decoded as `T`, errors are the same. -/
theorem c62_node (k : PtrKind) (d : NodeDecoder E S α) (node : SpannedNode S) (c : Ctx E S) :
    ptrNode k d node c = (d node c).mapValue fun a => ⟨k, a, 0⟩ := D.map_eq _ _ _

/-- **C62** for documents. -/
theorem c62_children (k : PtrKind) (d : ChildrenDecoder E S α) (nodes : List (SpannedNode S)) (c : Ctx E S) :
    ptrChildren k d nodes c = (d nodes c).mapValue fun a => ⟨k, a, 0⟩ := D.map_eq _ _ _

/-- **C62** for flattened structs: what is inserted into the pointer is inserted into the `T`, and the pointer
still is the only one to it. -/
theorem c62_insert (k : PtrKind) (d : Partial E S α) (a : α) (i : Insertion S) (c : Ctx E S) :
    (ptrPartial d).insert ⟨k, a, 0⟩ i c = (d.insert a i c).mapValue fun r => (r.1, ⟨k, r.2, 0⟩) := by
  have h : Ptr.getMut (E := E) (S := S) (⟨k, a, 0⟩ : Ptr α) = pure a := by cases k <;> rfl
  cases i with
  | child n =>
    show ((Ptr.getMut (⟨k, a, 0⟩ : Ptr α)) >>= fun v => _) c = _
    rw [h]
    show (d.insertChild a n >>= fun r => _) c = (d.insertChild a n c).mapValue _
    rw [D.bind_eq]
    cases d.insertChild a n c <;> rfl
  | property n v =>
    show ((Ptr.getMut (⟨k, a, 0⟩ : Ptr α)) >>= fun v => _) c = _
    rw [h]
    show (d.insertProperty a n v >>= fun r => _) c = (d.insertProperty a n v c).mapValue _
    rw [D.bind_eq]
    cases d.insertProperty a n v c <;> rfl

/-- **C62**, for any number of insertions, starting from a new pointer. -/
theorem c62_insertions (k : PtrKind) (d : Partial E S α) (a : α) (l : List (Insertion S)) (bs : List Bool) (p : Ptr α) (c c' : Ctx E S) :
    Inserted (ptrPartial d) ⟨k, a, 0⟩ c l bs p c' ↔ ∃ b, p = ⟨k, b, 0⟩ ∧ Inserted d a c l bs b c' := by
  constructor
  · intro h
    generalize hq : (⟨k, a, 0⟩ : Ptr α) = q at h
    induction h generalizing a with
    | nil => exact ⟨a, hq.symm, .nil⟩
    | @cons x c i l b bs y z c1 c2 h1 _ ih =>
      subst hq
      rw [c62_insert] at h1
      cases hx : d.insert a i c with
      | ok r c3 =>
        rw [hx] at h1
        cases h1
        obtain ⟨v, h2, h3⟩ := ih r.2 rfl
        exact ⟨v, h2, .cons hx h3⟩
      | err e c3 => rw [hx] at h1; cases h1
      | panic => rw [hx] at h1; cases h1
  · rintro ⟨b, rfl, h⟩
    induction h with
    | nil => exact .nil
    | cons h1 _ ih => exact .cons (by rw [c62_insert, h1]; rfl) ih

/-- **C62**, the limit: an `Arc` or `Rc` that was cloned cannot be inserted into, whatever `T` does. -/
theorem c62_shared (k : PtrKind) (hk : k ≠ .box) (d : Partial E S α) (a : α) (n : Nat) (i : Insertion S) (c : Ctx E S) :
    (ptrPartial d).insert ⟨k, a, n + 1⟩ i c = .panic := by
  have h : Ptr.getMut (E := E) (S := S) (⟨k, a, n + 1⟩ : Ptr α) = D.panic := by
    cases k with
    | box => exact absurd rfl hk
    | arc => rfl
    | rc => rfl
  cases i with
  | child m =>
    show ((Ptr.getMut (⟨k, a, n + 1⟩ : Ptr α)) >>= fun v => _) c = _
    rw [h]
    rfl
  | property m v =>
    show ((Ptr.getMut (⟨k, a, n + 1⟩ : Ptr α)) >>= fun v => _) c = _
    rw [h]
    rfl

open Demo in
/-- The node `x` and then a node `z` inserted into an `Arc` of the struct `inner`. -/
example : ∃ v, Inserted (ptrPartial inner.part) ⟨.arc, innerImpls.default, 0⟩ ⟨[], ()⟩ [.child (nd 'x'), .child (nd 'z')]
    [true, false] ⟨.arc, v, 0⟩ ⟨[], ()⟩ ∧ v = .record [(fld 'u', .none), (fld 'x', .some (.leaf 0)), (fld 'y', .bool false)] := by
  refine ⟨_, (c62_insertions _ _ _ _ _ _ _ _).2 ⟨_, rfl, .cons (c' := ⟨[], ()⟩) (y := .record [(fld 'u', .none), (fld 'x', .some (.leaf 0)), (fld 'y', .bool false)]) ?_ (.cons ?_ .nil)⟩, rfl⟩ <;> rfl

end Knuffel
