import Verif.Theory.TameDerive
import Verif.Spec.Schema
/-!
# The decoders of declared types are tame
-/

namespace Knuffel
open Schema
variable {E S α β : Type}

theorem tame_asField {d : Scalar E S α} (f : α → β) (h : (∀ t, Tame (d.typeCheck t)) ∧ ∀ l, Tame (d.rawDecode l)) :
    (∀ t, Tame ((asField f d).typeCheck t)) ∧ ∀ l, Tame ((asField f d).rawDecode l) :=
  ⟨h.1, fun l => (h.2 l).bind fun _ => Tame.pure _⟩

theorem tame_enumScalar {V : Type} (rustType : Str) (names : List ScalarVariant) :
    (∀ t, Tame ((enumScalar (E := E) (S := S) (V := V) rustType names).typeCheck t)) ∧
    ∀ l, Tame ((enumScalar (E := E) (S := S) (V := V) rustType names).rawDecode l) := by
  refine ⟨fun t => ?_, fun l => ?_⟩
  · cases t with
    | none => exact Tame.pure _
    | some t => exact Tame.emit _
  · dsimp only [enumScalar, Scalar.provided]
    split
    · split
      · exact Tame.pure _
      · exact Tame.fail _
    · exact Tame.fail _

theorem tame_scalar (ptr : Nat) (t : Scal) :
    (∀ a, Tame ((t.scalar (E := E) (S := S) ptr).typeCheck a)) ∧ ∀ l, Tame ((t.scalar (E := E) (S := S) ptr).rawDecode l) := by
  cases t with
  | int t => exact tame_asField _ ⟨tame_numTypeCheck _ _, tame_intRaw _ _⟩
  | float t => exact tame_asField _ ⟨tame_numTypeCheck _ _, tame_floatRaw _ _ _⟩
  | bool => exact tame_asField _ ⟨tame_noTypeCheck _, tame_boolRaw⟩
  | text => exact tame_asField _ ⟨tame_noTypeCheck _, tame_textRaw⟩
  | choice r vs => exact tame_enumScalar r vs
  | str _ => exact ⟨fun _ => Tame.pure _, fun _ => Tame.pure _⟩
  | bytes => exact ⟨fun _ => Tame.pure _, fun _ => Tame.pure _⟩

theorem tame_scalar_decode (ptr : Nat) (t : Scal) (v : Value S) : Tame ((t.scalar (E := E) (S := S) ptr).decode v) := by
  cases t with
  | int t => exact (tame_provided (tame_numTypeCheck _ _) (tame_intRaw _ _) v).bind fun _ => Tame.pure _
  | float t => exact (tame_provided (tame_numTypeCheck _ _) (tame_floatRaw t _ _) v).bind fun _ => Tame.pure _
  | bool => exact (tame_provided (tame_noTypeCheck _) tame_boolRaw v).bind fun _ => Tame.pure _
  | text => exact (tame_provided (tame_noTypeCheck _) tame_textRaw v).bind fun _ => Tame.pure _
  | choice r vs => exact tame_provided (tame_enumScalar (V := Leaf) r vs).1 (tame_enumScalar (V := Leaf) r vs).2 v
  | str _ => exact Tame.pure _
  | bytes => exact Tame.pure _

theorem tame_scal (ptr : Nat) (t : Scal) (o : Bool) : (t.impls (E := E) (S := S) ptr o).Tame where
  scalar v := by
    cases o
    · exact tame_scalar_decode ptr t v
    · refine (tame_provided (tame_scalar ptr t).1 (fun l => ?_) v).bind fun _ => Tame.pure _
      split
      · exact Tame.pure _
      · exact tame_map _ ((tame_scalar ptr t).2 l)
  node _ := Tame.pure _
  insertChild _ _ := Tame.pure _
  insertProperty _ _ _ := Tame.pure _
  span _ := Tame.pure _

theorem tame_nodeImpls (ptr : Nat) {d : NodeDecoder E S (FVal Leaf)} (h : ∀ n, Tame (d n)) : (nodeImpls ptr d).Tame where
  scalar := (tame_scal ptr .text false).scalar
  node := h
  insertChild _ _ := Tame.pure _
  insertProperty _ _ _ := Tame.pure _
  span _ := Tame.pure _

variable [Externals]

omit [Externals] in
theorem tame_own (ptr : Nat) (o : Own) {s : Struct E S Leaf} (h : s.Tame) : (o.into ptr s).Tame :=
  ⟨h.spans, h.arguments, h.varArgs, h.properties, h.varProps, h.children, h.varChildren⟩

mutual
theorem tame_decl (E S : Type) (ptr : Nat) : ∀ (d : Decl) (n : SpannedNode S), Tame (E := E) (d.node ptr n)
  | .struct o c, n => by
    rw [Decl.node]
    exact (tame_own ptr o (tame_content E S ptr c)).node n
  | .enum cases, n => by
    rw [Decl.node]
    exact tame_enumArms _ n _ (tame_cases E S ptr cases)
theorem tame_content (E S : Type) (ptr : Nat) : ∀ c : Content, (c.struct (E := E) (S := S) ptr).Tame
  | .mk args rest props restProps kids restKids => by
    have hk := tame_kids E S ptr kids
    have hr := tame_rest E S ptr restKids
    rw [Content.struct]
    constructor <;> simp only [List.mem_map, Option.mem_def, Option.map_eq_some_iff]
    · simp
    · rintro f ⟨x, -, rfl⟩; exact tame_scal _ _ _
    · rintro f ⟨x, -, rfl⟩; exact tame_scal _ _ _
    · rintro f ⟨x, -, rfl⟩; exact tame_scal _ _ _
    · rintro f ⟨x, -, rfl⟩; exact tame_scal _ _ _
    · exact hk
    · exact hr
theorem tame_kids (E S : Type) (ptr : Nat) : ∀ (ks : List Kid), ∀ f ∈ kidsChildren (E := E) (S := S) ptr ks,
    f.impls.Tame ∧ ∀ n, Tame (f.decoder n)
  | [], f, hf => by rw [kidsChildren] at hf; cases hf
  | k :: ks, f, hf => by
    rw [kidsChildren] at hf
    rcases List.mem_cons.1 hf with rfl | hf
    · exact tame_kid E S ptr k
    · exact tame_kids E S ptr ks f hf
theorem tame_kid (E S : Type) (ptr : Nat) : ∀ k : Kid, (k.child (E := E) (S := S) ptr).impls.Tame ∧
    ∀ n, Tame ((k.child (E := E) (S := S) ptr).decoder n)
  | .flag _ => by rw [Kid.child]; exact ⟨tame_nodeImpls ptr fun _ => Tame.pure _, fun _ => Tame.pure _⟩
  | .one _ i => by rw [Kid.child]; exact ⟨tame_nodeImpls ptr (tame_inner E S ptr i), tame_inner E S ptr i⟩
  | .opt _ i => by rw [Kid.child]; exact ⟨tame_nodeImpls ptr (tame_inner E S ptr i), tame_inner E S ptr i⟩
  | .orElse _ _ i => by rw [Kid.child]; exact ⟨tame_nodeImpls ptr (tame_inner E S ptr i), tame_inner E S ptr i⟩
  | .many _ _ i => by rw [Kid.child]; exact ⟨tame_nodeImpls ptr (tame_inner E S ptr i), tame_inner E S ptr i⟩
theorem tame_rest (E S : Type) (ptr : Nat) : ∀ (k : RestKids) (f : VarChildren E S Leaf), k.var ptr = some f → ∀ n, Tame (f.decoder n)
  | .none, f, hf => by rw [RestKids.var] at hf; cases hf
  | .some _ i, f, hf => by rw [RestKids.var] at hf; cases hf; exact tame_inner E S ptr i
theorem tame_inner (E S : Type) (ptr : Nat) : ∀ (i : Inner) (n : SpannedNode S), Tame (E := E) (i.decoder ptr n)
  | .type d, n => by rw [Inner.decoder]; exact tame_decl E S ptr d n
  | .unwrap f c, n => by rw [Inner.decoder]; exact tame_unwrapNode (tame_content E S ptr c) f n
theorem tame_cases (E S : Type) (ptr : Nat) : ∀ (ks : List Case), ∀ v ∈ casesVariants (E := E) (S := S) ptr ks, v.Tame
  | [], v, hv => by rw [casesVariants] at hv; cases hv
  | k :: ks, v, hv => by
    rw [casesVariants] at hv
    rcases List.mem_cons.1 hv with rfl | hv
    · exact tame_case E S ptr k
    · exact tame_cases E S ptr ks v hv
theorem tame_case (E S : Type) (ptr : Nat) : ∀ k : Case, (k.variant (E := E) (S := S) ptr).Tame
  | .unit _ => by rw [Case.variant]; exact trivial
  | .nested _ d => by rw [Case.variant]; exact tame_decl E S ptr d
  | .nestedOpt _ d => by rw [Case.variant]; exact tame_decl E S ptr d
  | .tuple _ c => by rw [Case.variant]; exact tame_content E S ptr c
end

end Knuffel
