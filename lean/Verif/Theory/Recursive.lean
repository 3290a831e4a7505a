import Verif.Spec.Recursive
import Verif.Theory.TameSchema
import Verif.Theory.Schema
/-!
# Types that refer to themselves and to each other: unfoldings
-/

namespace Knuffel
open Schema
variable {E S : Type}

/-! ### Levels -/

theorem within_mono {k : Nat} {n : SpannedNode S} (h : Within k n) : Within (k + 1) n := by
  induction k generalizing n with
  | zero => exact h.elim
  | succ k ih => exact fun m hm => ih (h m hm)

theorem within_le {k j : Nat} (hkj : k ≤ j) {n : SpannedNode S} (h : Within k n) : Within j n := by
  induction hkj with
  | refl => exact h
  | step _ ih => exact within_mono ih

theorem within_child {k : Nat} {n : SpannedNode S} (h : Within k n) : ∀ m ∈ n.value.childNodes, Within k m := by
  cases k with
  | zero => exact h.elim
  | succ k => exact fun m hm => within_mono (h m hm)

theorem within_list {l : List (SpannedNode S)} (h : ∀ m ∈ l, ∃ k, Within k m) : ∃ k, ∀ m ∈ l, Within k m := by
  induction l with
  | nil => exact ⟨0, by simp⟩
  | cons a l ih =>
    obtain ⟨k, hk⟩ := ih fun m hm => h m (by simp [hm])
    obtain ⟨j, hj⟩ := h a (by simp)
    refine ⟨max k j, fun m hm => ?_⟩
    rcases List.mem_cons.1 hm with rfl | hm
    · exact within_le (Nat.le_max_right _ _) hj
    · exact within_le (Nat.le_max_left _ _) (hk m hm)

mutual
theorem node_within : ∀ (s : S) (n : Node S), ∃ k, Within k (⟨s, n⟩ : SpannedNode S)
  | _, .mk _ _ _ _ none => ⟨1, fun m hm => by simp [Node.childNodes, Node.children] at hm⟩
  | _, .mk _ _ _ _ (some ⟨_, l⟩) => by
    obtain ⟨k, hk⟩ := nodes_within l
    exact ⟨k + 1, fun m hm => hk m hm⟩
theorem nodes_within : ∀ (l : List (Spanned (Node S) S)), ∃ k, ∀ m ∈ l, Within k m
  | [] => ⟨0, by simp⟩
  | ⟨s, n⟩ :: l => by
    obtain ⟨k, hk⟩ := nodes_within l
    obtain ⟨j, hj⟩ := node_within s n
    refine ⟨max k j, fun m hm => ?_⟩
    rcases List.mem_cons.1 hm with rfl | hm
    · exact within_le (Nat.le_max_right _ _) hj
    · exact within_le (Nat.le_max_left _ _) (hk m hm)
end

variable [Externals]

/-! ### The body with unfoldings for the names is that of the unfolding -/

mutual
theorem fill_node (ptr : Nat) (r : Str → Decl) : ∀ d : Decl, (fillDecl r d).node (E := E) (S := S) ptr = d.body ptr (fun name => (r name).node ptr)
  | .struct own c => by rw [fillDecl, Decl.node, Decl.body, fill_content ptr r c]
  | .enum cases => by
    rw [fillDecl, Decl.body]
    cases refName cases with
    | some name => rfl
    | none => dsimp only; rw [Decl.node, fill_cases ptr r cases]
theorem fill_content (ptr : Nat) (r : Str → Decl) : ∀ c : Content, (c.fill r).struct (E := E) (S := S) ptr = c.structBody ptr (fun name => (r name).node ptr)
  | .mk args rest props restProps kids restKids => by
    rw [Content.fill, Content.struct, Content.structBody, fill_kids ptr r kids, fill_rest ptr r restKids]
theorem fill_kids (ptr : Nat) (r : Str → Decl) : ∀ ks : List Kid, kidsChildren (E := E) (S := S) ptr (kidsFill r ks) = kidsBody ptr (fun name => (r name).node ptr) ks
  | [] => by rw [kidsFill, kidsChildren, kidsBody]
  | k :: ks => by rw [kidsFill, kidsChildren, kidsBody, fill_kid ptr r k, fill_kids ptr r ks]
theorem fill_kid (ptr : Nat) (r : Str → Decl) : ∀ k : Kid, (k.fill r).child (E := E) (S := S) ptr = k.childBody ptr (fun name => (r name).node ptr)
  | .flag _ => by rw [Kid.fill, Kid.child, Kid.childBody]
  | .one _ i => by rw [Kid.fill, Kid.child, Kid.childBody, fill_inner ptr r i]
  | .opt _ i => by rw [Kid.fill, Kid.child, Kid.childBody, fill_inner ptr r i]
  | .orElse _ _ i => by rw [Kid.fill, Kid.child, Kid.childBody, fill_inner ptr r i]
  | .many _ _ i => by rw [Kid.fill, Kid.child, Kid.childBody, fill_inner ptr r i]
theorem fill_rest (ptr : Nat) (r : Str → Decl) : ∀ k : RestKids, (k.fill r).var (E := E) (S := S) ptr = k.varBody ptr (fun name => (r name).node ptr)
  | .none => by rw [RestKids.fill, RestKids.var, RestKids.varBody]
  | .some _ i => by rw [RestKids.fill, RestKids.var, RestKids.varBody, fill_inner ptr r i]
theorem fill_inner (ptr : Nat) (r : Str → Decl) : ∀ i : Inner, (i.fill r).decoder (E := E) (S := S) ptr = i.decoderBody ptr (fun name => (r name).node ptr)
  | .type d => by rw [Inner.fill, Inner.decoder, Inner.decoderBody, fill_node ptr r d]
  | .unwrap _ c => by rw [Inner.fill, Inner.decoder, Inner.decoderBody, fill_content ptr r c]
theorem fill_cases (ptr : Nat) (r : Str → Decl) : ∀ ks : List Case, casesVariants (E := E) (S := S) ptr (casesFill r ks) = casesBody ptr (fun name => (r name).node ptr) ks
  | [] => by rw [casesFill, casesVariants, casesBody]
  | k :: ks => by rw [casesFill, casesVariants, casesBody, fill_case ptr r k, fill_cases ptr r ks]
theorem fill_case (ptr : Nat) (r : Str → Decl) : ∀ k : Case, (k.fill r).variant (E := E) (S := S) ptr = k.variantBody ptr (fun name => (r name).node ptr)
  | .unit _ => by rw [Case.fill, Case.variant, Case.variantBody]
  | .nested _ d => by rw [Case.fill, Case.variant, Case.variantBody, fill_node ptr r d]
  | .nestedOpt _ d => by rw [Case.fill, Case.variant, Case.variantBody, fill_node ptr r d]
  | .tuple _ c => by rw [Case.fill, Case.variant, Case.variantBody, fill_content ptr r c]
end

/-! ### The body only looks at children -/

omit [Externals] in
/-- The same but for the decoders, which agree on the nodes in question. -/
structure ChildLike (P : SpannedNode S → Prop) (a b : Child E S Leaf) : Prop where
  field : a.field = b.field
  name : a.name = b.name
  option : a.option = b.option
  mode : a.mode = b.mode
  default : a.default = b.default
  plain : a.mode ≠ .flatten
  decoder : ∀ m, P m → a.decoder m = b.decoder m

variable {P : SpannedNode S → Prop}

omit [Externals] in
theorem zip_snd {cs cs' : List (Child E S Leaf)} (h : Each2 (ChildLike P) cs cs') (flds : List (FVal Leaf)) :
    (cs.zip flds).map (·.2) = (cs'.zip flds).map (·.2) := by
  induction h generalizing flds with
  | nil => rfl
  | cons _ _ ih =>
    cases flds with
    | nil => rfl
    | cons f fs => simp [ih fs]

omit [Externals] in
theorem childArm_like {a b : Child E S Leaf} (h : ChildLike P a b) {m : SpannedNode S} (hm : P m) (fld : FVal Leaf) :
    childArm a fld m = childArm b fld m := by
  have hd : duplicateNode a m = duplicateNode b m := by unfold duplicateNode; rw [h.name]
  unfold childArm
  rw [h.mode, h.decoder m hm, hd]

omit [Externals] in
theorem childArms_like {cs cs' : List (Child E S Leaf)} (h : Each2 (ChildLike P) cs cs') {m : SpannedNode S} (hm : P m)
    (flds : List (FVal Leaf)) : childArms m (cs.zip flds) = childArms m (cs'.zip flds) := by
  induction h generalizing flds with
  | nil => rfl
  | @cons a b as bs hab hr ih =>
    cases flds with
    | nil => rfl
    | cons f fs =>
      have hb : b.mode ≠ .flatten := h_mode hab
      simp only [List.zip_cons_cons, childArms, if_neg hab.plain, if_neg hb, hab.name, childArm_like hab hm, ih fs]
      rw [zip_snd hr fs]
where
  h_mode {a b : Child E S Leaf} (h : ChildLike P a b) : b.mode ≠ .flatten := h.mode ▸ h.plain

omit [Externals] in
theorem finish_like {cs cs' : List (Child E S Leaf)} (h : Each2 (ChildLike P) cs cs') (sp : Option S)
    (flds : List (FVal Leaf)) : finishChildren sp (cs.zip flds) = finishChildren sp (cs'.zip flds) := by
  induction h generalizing flds with
  | nil => rfl
  | @cons a b as bs hab hr ih =>
    cases flds with
    | nil => rfl
    | cons f fs =>
      have h1 : a.finish sp f = b.finish sp f := by
        have hmiss : missingChild sp a = missingChild sp b := by unfold missingChild; rw [hab.name]
        unfold Child.finish
        rw [hab.mode, hab.default, hab.option, hmiss]
      simp only [List.zip_cons_cons, finishChildren, h1, hab.field, ih fs]

omit [Externals] in
theorem init_like {cs cs' : List (Child E S Leaf)} (h : Each2 (ChildLike P) cs cs') : cs.map (·.init) = cs'.map (·.init) := by
  induction h with
  | nil => rfl
  | @cons a b as bs hab _ ih =>
    have h1 : a.init = b.init := by
      have hp := hab.plain
      have hp' : b.mode ≠ .flatten := hab.mode ▸ hp
      unfold Child.init
      rw [← hab.mode]
      cases hm : a.mode <;> simp_all
    simp [h1, ih]

/-- The catch-all fields, likewise. -/
def VarLike (P : SpannedNode S → Prop) : Option (VarChildren E S Leaf) → Option (VarChildren E S Leaf) → Prop
  | none, none => True
  | some a, some b => a.field = b.field ∧ ∀ m, P m → a.decoder m = b.decoder m
  | _, _ => False

omit [Externals] in
theorem childLoop_like {s s' : Struct E S Leaf} (h : Each2 (ChildLike P) s.children s'.children) (hv : VarLike P s.varChildren s'.varChildren)
    (ns : List (SpannedNode S)) (hn : ∀ m ∈ ns, P m) (flds var : List (FVal Leaf)) : childLoop s ns flds var = childLoop s' ns flds var := by
  induction ns generalizing flds var with
  | nil => rfl
  | cons m ns ih =>
    have ih := ih fun x hx => hn x (by simp [hx])
    have hm := hn m (by simp)
    unfold childLoop
    rw [childArms_like h hm]
    congr 1
    funext r
    split
    · exact ih _ _
    · cases h1 : s.varChildren with
      | none =>
        cases h2 : s'.varChildren with
        | none => simp only [ih]
        | some b => rw [h1, h2] at hv; exact hv.elim
      | some a =>
        cases h2 : s'.varChildren with
        | none => rw [h1, h2] at hv; exact hv.elim
        | some b =>
          rw [h1, h2] at hv
          simp only [hv.2 m hm, ih]

omit [Externals] in
theorem decodeChildren_like {s s' : Struct E S Leaf} (h : Each2 (ChildLike P) s.children s'.children)
    (hv : VarLike P s.varChildren s'.varChildren) (sp : Option S) (ns : List (SpannedNode S)) (hn : ∀ m ∈ ns, P m) :
    decodeChildren s sp ns = decodeChildren s' sp ns := by
  unfold decodeChildren
  rw [init_like h, childLoop_like h hv ns hn]
  congr 1
  funext r
  rw [finish_like h]
  congr 1
  funext env
  cases h1 : s.varChildren <;> cases h2 : s'.varChildren <;> rw [h1, h2] at hv <;> first | exact hv.elim | rfl | skip
  simp only [hv.1]

/-- The contents of a struct, with all but the fields for children the same. -/
theorem decodeContent_like {s s' : Struct E S Leaf} (h : Each2 (ChildLike P) s.children s'.children)
    (hv : VarLike P s.varChildren s'.varChildren) (ha : s.arguments = s'.arguments) (hva : s.varArgs = s'.varArgs)
    (hp : s.properties = s'.properties) (hvp : s.varProps = s'.varProps)
    (n : SpannedNode S) (hn : ∀ m ∈ n.value.childNodes, P m) : decodeContent s n = decodeContent s' n := by
  have h1 : decodeArgs s n = decodeArgs s' n := by unfold decodeArgs; rw [ha, hva]
  have h2 : decodeProps s n = decodeProps s' n := by
    unfold decodeProps
    have : ∀ l sts var, propLoop s l sts var = propLoop s' l sts var := by
      intro l
      induction l with
      | nil => intro sts var; rfl
      | cons x l ih => intro sts var; unfold propLoop; simp only [hp, hvp, ih]
    simp only [this, hp, hvp]
  unfold decodeContent
  rw [h1, h2, decodeChildren_like h hv _ _ hn]

variable (ptr : Nat) (f g : Str → NodeDecoder E S (FVal Leaf)) (k : Nat)

/-- Variants that do the same with the node. -/
def ArmLike (n : SpannedNode S) (a b : Variant E S Leaf) : Prop := a.name = b.name ∧ a.arm n = b.arm n

theorem enum_like {n : SpannedNode S} {vs ws : List (Variant E S Leaf)} (h : Each2 (ArmLike n) vs ws) : enumNode vs n = enumNode ws n := by
  have hn : vs.map (·.name) = ws.map (·.name) := by
    induction h with
    | nil => rfl
    | cons h _ ih => simp [h.1, ih]
  unfold enumNode
  rw [hn]
  generalize ws.map (·.name) = names
  clear hn
  induction h with
  | nil => rfl
  | cons h _ ih => simp only [enumArms, h.1, h.2, ih]

/-- The same but for the fields for children, which are alike. -/
structure StructLike (P : SpannedNode S → Prop) (s s' : Struct E S Leaf) : Prop where
  children : Each2 (ChildLike P) s.children s'.children
  rest : VarLike P s.varChildren s'.varChildren
  same : { s' with children := s.children, varChildren := s.varChildren } = s

theorem content_of_like {s s' : Struct E S Leaf} (h : StructLike P s s') (n : SpannedNode S)
    (hn : ∀ m ∈ n.value.childNodes, P m) : decodeContent s n = decodeContent s' n := by
  have e := h.same
  exact decodeContent_like h.children h.rest (congrArg Struct.arguments e).symm (congrArg Struct.varArgs e).symm
    (congrArg Struct.properties e).symm (congrArg Struct.varProps e).symm n hn

theorem struct_of_like {s s' : Struct E S Leaf} (h : StructLike P s s') (own : Own) (n : SpannedNode S)
    (hn : ∀ m ∈ n.value.childNodes, P m) : (own.into ptr s).node n = (own.into ptr s').node n := by
  have e := h.same
  have h1 : decodeContent (own.into ptr s) n = decodeContent (own.into ptr s') n :=
    decodeContent_like (P := P) (s := own.into ptr s) (s' := own.into ptr s') h.children h.rest (congrArg Struct.arguments e).symm (congrArg Struct.varArgs e).symm
      (congrArg Struct.properties e).symm (congrArg Struct.varProps e).symm n hn
  have h2 : decodeSpecials (own.into ptr s) n = decodeSpecials (own.into ptr s') n := by
    have e2 := congrArg Struct.spans e
    dsimp only at e2
    simp only [decodeSpecials, Own.into, e2]
    rfl
  unfold Struct.node
  rw [h1, h2]
  rfl

mutual
theorem body_agree (h : ∀ name n, Within k n → f name n = g name n) : ∀ (d : Decl) (n : SpannedNode S), Within k n → d.body ptr f n = d.body ptr g n
  | .struct own c, n, hn => by
    rw [Decl.body, Decl.body]
    exact struct_of_like ptr (content_like h c) own n (within_child hn)
  | .enum cases, n, hn => by
    rw [Decl.body, Decl.body]
    cases refName cases with
    | some name => exact h name n hn
    | none => exact enum_like (cases_like h cases n hn)
theorem content_like (h : ∀ name n, Within k n → f name n = g name n) : ∀ c : Content, StructLike (Within k) (c.structBody ptr f) (c.structBody ptr g)
  | .mk args rest props restProps kids restKids => by
    rw [Content.structBody, Content.structBody]
    exact ⟨kids_like h kids, rest_like h restKids, rfl⟩
theorem kids_like (h : ∀ name n, Within k n → f name n = g name n) : ∀ ks : List Kid, Each2 (ChildLike (Within k)) (kidsBody ptr f ks) (kidsBody ptr g ks)
  | [] => by rw [kidsBody, kidsBody]; exact .nil
  | x :: ks => by rw [kidsBody, kidsBody]; exact .cons (kid_like h x) (kids_like h ks)
theorem kid_like (h : ∀ name n, Within k n → f name n = g name n) : ∀ x : Kid, ChildLike (Within k) (x.childBody ptr f) (x.childBody ptr g)
  | .flag _ => by rw [Kid.childBody, Kid.childBody]; exact ⟨rfl, rfl, rfl, rfl, rfl, by simp, fun _ _ => rfl⟩
  | .one _ i => by rw [Kid.childBody, Kid.childBody]; exact ⟨rfl, rfl, rfl, rfl, rfl, by simp, inner_agree h i⟩
  | .opt _ i => by rw [Kid.childBody, Kid.childBody]; exact ⟨rfl, rfl, rfl, rfl, rfl, by simp, inner_agree h i⟩
  | .orElse _ _ i => by rw [Kid.childBody, Kid.childBody]; exact ⟨rfl, rfl, rfl, rfl, rfl, by simp, inner_agree h i⟩
  | .many _ _ i => by rw [Kid.childBody, Kid.childBody]; exact ⟨rfl, rfl, rfl, rfl, rfl, by simp, inner_agree h i⟩
theorem rest_like (h : ∀ name n, Within k n → f name n = g name n) : ∀ x : RestKids, VarLike (Within k) (x.varBody ptr f) (x.varBody ptr g)
  | .none => by rw [RestKids.varBody, RestKids.varBody]; trivial
  | .some _ i => by rw [RestKids.varBody, RestKids.varBody]; exact ⟨rfl, inner_agree h i⟩
theorem inner_agree (h : ∀ name n, Within k n → f name n = g name n) : ∀ (i : Inner) (n : SpannedNode S), Within k n → i.decoderBody ptr f n = i.decoderBody ptr g n
  | .type d, n, hn => by rw [Inner.decoderBody, Inner.decoderBody]; exact body_agree h d n hn
  | .unwrap _ c, n, hn => by
    rw [Inner.decoderBody, Inner.decoderBody]
    simp only [unwrapNode, content_of_like (content_like h c) n (within_child hn)]
theorem cases_like (h : ∀ name n, Within k n → f name n = g name n) : ∀ (ks : List Case) (n : SpannedNode S), Within k n → Each2 (ArmLike n) (casesBody ptr f ks) (casesBody ptr g ks)
  | [], _, _ => by rw [casesBody, casesBody]; exact .nil
  | x :: ks, n, hn => by rw [casesBody, casesBody]; exact .cons (case_like h x n hn) (cases_like h ks n hn)
theorem case_like (h : ∀ name n, Within k n → f name n = g name n) : ∀ (x : Case) (n : SpannedNode S), Within k n → ArmLike n (x.variantBody ptr f) (x.variantBody ptr g)
  | .unit _, _, _ => by rw [Case.variantBody, Case.variantBody]; exact ⟨rfl, rfl⟩
  | .nested _ d, n, hn => by
    rw [Case.variantBody, Case.variantBody]
    refine ⟨rfl, ?_⟩
    simp only [Variant.arm, body_agree h d n hn]
  | .nestedOpt _ d, n, hn => by
    rw [Case.variantBody, Case.variantBody]
    refine ⟨rfl, ?_⟩
    simp only [Variant.arm, body_agree h d n hn]
  | .tuple _ c, n, hn => by
    rw [Case.variantBody, Case.variantBody]
    refine ⟨rfl, ?_⟩
    have e : assignExtra (c.structBody ptr f) = assignExtra (c.structBody ptr g) := by
      unfold assignExtra
      rw [congrArg Struct.extraFields (content_like h c).same]
    simp only [Variant.arm, content_of_like (content_like h c) n (within_child hn), e]
end

section
variable (ok : Str → Prop)

mutual
/-- The body looks one level further than the functions for the names, but for those of which `ok` holds. -/
theorem guarded_agree (h : ∀ name n, Within k n → f name n = g name n) (h2 : ∀ name n, ok name → Within (k + 1) n → f name n = g name n) : ∀ (d : Decl), d.Guarded ok → ∀ (n : SpannedNode S), Within (k + 1) n → d.body ptr f n = d.body ptr g n
  | .struct own c, _, n, hn => by
    rw [Decl.body, Decl.body]
    exact struct_of_like ptr (content_like ptr f g k h c) own n hn
  | .enum cases, hg, n, hn => by
    rw [Decl.Guarded] at hg
    rw [Decl.body, Decl.body]
    revert hg
    cases refName cases with
    | some name => exact fun hg => h2 name n hg hn
    | none => exact fun hg => enum_like (guarded_cases h h2 cases hg n hn)
theorem guarded_cases (h : ∀ name n, Within k n → f name n = g name n) (h2 : ∀ name n, ok name → Within (k + 1) n → f name n = g name n) : ∀ (ks : List Case), casesGuarded ok ks → ∀ (n : SpannedNode S), Within (k + 1) n → Each2 (ArmLike n) (casesBody ptr f ks) (casesBody ptr g ks)
  | [], _, _, _ => by rw [casesBody, casesBody]; exact .nil
  | x :: ks, hg, n, hn => by
    rw [casesGuarded] at hg
    rw [casesBody, casesBody]; exact .cons (guarded_case h h2 x hg.1 n hn) (guarded_cases h h2 ks hg.2 n hn)
theorem guarded_case (h : ∀ name n, Within k n → f name n = g name n) (h2 : ∀ name n, ok name → Within (k + 1) n → f name n = g name n) : ∀ (x : Case), x.Guarded ok → ∀ (n : SpannedNode S), Within (k + 1) n → ArmLike n (x.variantBody ptr f) (x.variantBody ptr g)
  | .unit _, _, _, _ => by rw [Case.variantBody, Case.variantBody]; exact ⟨rfl, rfl⟩
  | .nested _ d, hg, n, hn => by
    rw [Case.Guarded] at hg
    rw [Case.variantBody, Case.variantBody]
    refine ⟨rfl, ?_⟩
    simp only [Variant.arm, guarded_agree h h2 d hg n hn]
  | .nestedOpt _ d, hg, n, hn => by
    rw [Case.Guarded] at hg
    rw [Case.variantBody, Case.variantBody]
    refine ⟨rfl, ?_⟩
    simp only [Variant.arm, guarded_agree h h2 d hg n hn]
  | .tuple _ c, _, n, hn => by
    rw [Case.variantBody, Case.variantBody]
    refine ⟨rfl, ?_⟩
    have e : assignExtra (c.structBody ptr f) = assignExtra (c.structBody ptr g) := by
      unfold assignExtra
      rw [congrArg Struct.extraFields (content_like ptr f g k h c).same]
    simp only [Variant.arm, content_of_like (content_like ptr f g k h c) n hn, e]
end

end

/-! ### Unfoldings -/

omit [Externals] in
theorem kid_fill_field (r : Str → Decl) (x : Kid) : (x.fill r).field = x.field := by
  cases x <;> rw [Kid.fill] <;> rfl

theorem kid_fill_name (r : Str → Decl) (x : Kid) : (x.fill r).name = x.name := by
  cases x <;> rw [Kid.fill] <;> rfl

theorem case_fill_name (r : Str → Decl) (x : Case) : (x.fill r).name = x.name := by
  cases x <;> rw [Case.fill] <;> rfl

omit [Externals] in
theorem kids_fill_field (r : Str → Decl) (ks : List Kid) : (kidsFill r ks).map Kid.field = ks.map Kid.field := by
  induction ks with
  | nil => rw [kidsFill]
  | cons x ks ih => rw [kidsFill, List.map_cons, List.map_cons, ih, kid_fill_field]

theorem kids_fill_name (r : Str → Decl) (ks : List Kid) : (kidsFill r ks).map Kid.name = ks.map Kid.name := by
  induction ks with
  | nil => rw [kidsFill]
  | cons x ks ih => rw [kidsFill, List.map_cons, List.map_cons, ih, kid_fill_name]

omit [Externals] in
theorem fields_fill (r : Str → Decl) (c : Content) : (c.fill r).fields = c.fields := by
  cases c with
  | mk args rest props restProps kids restKids =>
    rw [Content.fill]
    cases restKids <;> simp only [RestKids.fill, Content.fields, kids_fill_field]

mutual
theorem proper_fill (r : Str → Decl) (hr : ∀ name, (r name).Proper) : ∀ d : Decl, d.Proper → (fillDecl r d).Proper
  | .struct _ c, h => by
    rw [Decl.Proper] at h
    rw [fillDecl, Decl.Proper]
    exact proper_fill_content r hr c h
  | .enum cases, h => by
    rw [Decl.Proper] at h
    rw [fillDecl]
    cases refName cases with
    | some name => exact hr name
    | none => dsimp only; rw [Decl.Proper]; exact proper_fill_cases r hr cases h
theorem proper_fill_content (r : Str → Decl) (hr : ∀ name, (r name).Proper) : ∀ c : Content, c.Proper → (c.fill r).Proper
  | .mk args rest props restProps kids restKids, h => by
    have hf := fields_fill r (.mk args rest props restProps kids restKids)
    rw [Content.Proper] at h
    rw [Content.fill] at hf ⊢
    rw [Content.Proper, hf, kids_fill_name]
    exact ⟨h.1, h.2.1, h.2.2.1, proper_fill_kids r hr kids h.2.2.2.1, proper_fill_rest r hr restKids h.2.2.2.2⟩
theorem proper_fill_kids (r : Str → Decl) (hr : ∀ name, (r name).Proper) : ∀ ks : List Kid, kidsProper ks → kidsProper (kidsFill r ks)
  | [], _ => by rw [kidsFill, kidsProper]; trivial
  | x :: ks, h => by
    rw [kidsProper] at h
    rw [kidsFill, kidsProper]
    exact ⟨proper_fill_kid r hr x h.1, proper_fill_kids r hr ks h.2⟩
theorem proper_fill_kid (r : Str → Decl) (hr : ∀ name, (r name).Proper) : ∀ x : Kid, x.Proper → (x.fill r).Proper
  | .flag _, _ => by rw [Kid.fill, Kid.Proper]; trivial
  | .one _ i, h => by rw [Kid.Proper] at h; rw [Kid.fill, Kid.Proper]; exact proper_fill_inner r hr i h
  | .opt _ i, h => by rw [Kid.Proper] at h; rw [Kid.fill, Kid.Proper]; exact proper_fill_inner r hr i h
  | .orElse _ _ i, h => by rw [Kid.Proper] at h; rw [Kid.fill, Kid.Proper]; exact proper_fill_inner r hr i h
  | .many _ _ i, h => by rw [Kid.Proper] at h; rw [Kid.fill, Kid.Proper]; exact proper_fill_inner r hr i h
theorem proper_fill_rest (r : Str → Decl) (hr : ∀ name, (r name).Proper) : ∀ x : RestKids, x.Proper → (x.fill r).Proper
  | .none, _ => by rw [RestKids.fill, RestKids.Proper]; trivial
  | .some _ i, h => by rw [RestKids.Proper] at h; rw [RestKids.fill, RestKids.Proper]; exact proper_fill_inner r hr i h
theorem proper_fill_inner (r : Str → Decl) (hr : ∀ name, (r name).Proper) : ∀ i : Inner, i.Proper → (i.fill r).Proper
  | .type d, h => by rw [Inner.Proper] at h; rw [Inner.fill, Inner.Proper]; exact proper_fill r hr d h
  | .unwrap _ c, h => by
    rw [Inner.Proper] at h; rw [Inner.fill, Inner.Proper, fields_fill]
    exact ⟨h.1, proper_fill_content r hr c h.2⟩
theorem proper_fill_cases (r : Str → Decl) (hr : ∀ name, (r name).Proper) : ∀ ks : List Case, casesProper ks → casesProper (casesFill r ks)
  | [], _ => by rw [casesFill, casesProper]; trivial
  | x :: ks, h => by
    rw [casesProper] at h
    rw [casesFill, casesProper]
    exact ⟨proper_fill_case r hr x h.1, proper_fill_cases r hr ks h.2⟩
theorem proper_fill_case (r : Str → Decl) (hr : ∀ name, (r name).Proper) : ∀ x : Case, x.Proper → (x.fill r).Proper
  | .unit _, _ => by rw [Case.fill, Case.Proper]; trivial
  | .nested _ d, h => by rw [Case.Proper] at h; rw [Case.fill, Case.Proper]; exact proper_fill r hr d h
  | .nestedOpt _ d, h => by rw [Case.Proper] at h; rw [Case.fill, Case.Proper]; exact proper_fill r hr d h
  | .tuple _ c, h => by rw [Case.Proper] at h; rw [Case.fill, Case.Proper]; exact proper_fill_content r hr c h
end

theorem proper_unfold {ds : Str → Decl} (h : ∀ name, (ds name).Proper) : ∀ k name, (unfolding ds k name).Proper
  | 0, _ => by rw [unfolding, Decl.Proper, casesProper]; trivial
  | k + 1, name => proper_fill _ (proper_unfold h k) _ (h name)

mutual
theorem reads_fill {r q : Str → Decl} (hrq : ∀ name (n : SpannedNode S) v, (r name).Reads ptr n v → (q name).Reads ptr n v) :
    ∀ (d : Decl) (n : SpannedNode S) v, (fillDecl r d).Reads ptr n v → (fillDecl q d).Reads ptr n v
  | .struct own c, n, v, h => by
    rw [fillDecl, Decl.Reads] at h ⊢
    obtain ⟨a, t, env, h1, h2, h3, h4⟩ := h
    exact ⟨a, t, env, h1, h2, h3, reads_fill_content hrq c n env h4⟩
  | .enum cases, n, v, h => by
    rw [fillDecl] at h ⊢
    revert h
    cases refName cases with
    | some name => exact hrq name n v
    | none =>
      intro h
      dsimp only at h ⊢
      rw [Decl.Reads] at h ⊢
      exact reads_fill_cases hrq cases n v h
theorem reads_fill_content {r q : Str → Decl} (hrq : ∀ name (n : SpannedNode S) v, (r name).Reads ptr n v → (q name).Reads ptr n v) :
    ∀ (c : Content) (n : SpannedNode S) env, (c.fill r).Reads ptr n env → (c.fill q).Reads ptr n env
  | .mk args rest props restProps kids restKids, n, env, h => by
    have hf := fields_fill r (.mk args rest props restProps kids restKids)
    have hq := fields_fill q (.mk args rest props restProps kids restKids)
    rw [Content.fill] at h hf hq ⊢
    unfold Content.Reads at h ⊢
    simp only [hf, kids_fill_name] at h
    simp only [hq, kids_fill_name]
    obtain ⟨h1, h2, h3, h4, h5, h6, h7⟩ := h
    exact ⟨h1, h2, h3, h4, h5, reads_fill_kids hrq kids _ _ h6, reads_fill_rest hrq restKids _ _ h7⟩
theorem reads_fill_kids {r q : Str → Decl} (hrq : ∀ name (n : SpannedNode S) v, (r name).Reads ptr n v → (q name).Reads ptr n v) :
    ∀ (ks : List Kid) (ns : List (SpannedNode S)) env, kidsRead ptr (kidsFill r ks) ns env → kidsRead ptr (kidsFill q ks) ns env
  | [], _, _, _ => by rw [kidsFill, kidsRead]; trivial
  | x :: ks, ns, env, h => by
    rw [kidsFill, kidsRead, kid_fill_field, kid_fill_name] at h ⊢
    obtain ⟨⟨y, h1, h2⟩, h3⟩ := h
    exact ⟨⟨y, h1, reads_fill_kid hrq x _ y h2⟩, reads_fill_kids hrq ks ns env h3⟩
theorem reads_fill_kid {r q : Str → Decl} (hrq : ∀ name (n : SpannedNode S) v, (r name).Reads ptr n v → (q name).Reads ptr n v) :
    ∀ (x : Kid) (ns : List (SpannedNode S)) v, (x.fill r).Reads ptr ns v → (x.fill q).Reads ptr ns v
  | .flag _, _, _, h => by rw [Kid.fill] at h ⊢; exact h
  | .one _ i, _, _, h => by
    rw [Kid.fill, Kid.Reads] at h ⊢
    obtain ⟨m, h1, h2⟩ := h
    exact ⟨m, h1, reads_fill_inner hrq i _ _ h2⟩
  | .opt _ i, _, _, h => by
    rw [Kid.fill, Kid.Reads] at h ⊢
    rcases h with h | ⟨m, y, h1, h2, h3⟩
    · exact Or.inl h
    · exact Or.inr ⟨m, y, h1, reads_fill_inner hrq i _ _ h2, h3⟩
  | .orElse _ _ i, _, _, h => by
    rw [Kid.fill, Kid.Reads] at h ⊢
    rcases h with h | ⟨m, h1, h2⟩
    · exact Or.inl h
    · exact Or.inr ⟨m, h1, reads_fill_inner hrq i _ _ h2⟩
  | .many _ _ i, _, _, h => by
    rw [Kid.fill, Kid.Reads] at h ⊢
    obtain ⟨xs, h1, h2⟩ := h
    exact ⟨xs, h1, h2.imp fun _ _ h => reads_fill_inner hrq i _ _ h⟩
theorem reads_fill_rest {r q : Str → Decl} (hrq : ∀ name (n : SpannedNode S) v, (r name).Reads ptr n v → (q name).Reads ptr n v) :
    ∀ (x : RestKids) (ns : List (SpannedNode S)) env, (x.fill r).Reads ptr ns env → (x.fill q).Reads ptr ns env
  | .none, _, _, h => by rw [RestKids.fill] at h ⊢; exact h
  | .some _ i, _, _, h => by
    rw [RestKids.fill, RestKids.Reads] at h ⊢
    obtain ⟨xs, h1, h2⟩ := h
    exact ⟨xs, h1, h2.imp fun _ _ h => reads_fill_inner hrq i _ _ h⟩
theorem reads_fill_inner {r q : Str → Decl} (hrq : ∀ name (n : SpannedNode S) v, (r name).Reads ptr n v → (q name).Reads ptr n v) :
    ∀ (i : Inner) (n : SpannedNode S) v, (i.fill r).Reads ptr n v → (i.fill q).Reads ptr n v
  | .type d, n, v, h => by rw [Inner.fill, Inner.Reads] at h ⊢; exact reads_fill hrq d n v h
  | .unwrap _ c, n, _, h => by rw [Inner.fill, Inner.Reads] at h ⊢; exact reads_fill_content hrq c n _ h
theorem reads_fill_cases {r q : Str → Decl} (hrq : ∀ name (n : SpannedNode S) v, (r name).Reads ptr n v → (q name).Reads ptr n v) :
    ∀ (ks : List Case) (n : SpannedNode S) v, casesRead ptr (casesFill r ks) n v → casesRead ptr (casesFill q ks) n v
  | [], _, _, h => by rw [casesFill, casesRead] at h; exact h.elim
  | x :: ks, n, v, h => by
    rw [casesFill, casesRead, case_fill_name] at h ⊢
    split at h
    · rw [if_pos (by assumption)]; exact reads_fill_case hrq x n v h
    · rw [if_neg (by assumption)]; exact reads_fill_cases hrq ks n v h
theorem reads_fill_case {r q : Str → Decl} (hrq : ∀ name (n : SpannedNode S) v, (r name).Reads ptr n v → (q name).Reads ptr n v) :
    ∀ (x : Case) (n : SpannedNode S) v, (x.fill r).Reads ptr n v → (x.fill q).Reads ptr n v
  | .unit _, _, _, h => by rw [Case.fill] at h ⊢; exact h
  | .nested _ d, n, v, h => by
    rw [Case.fill, Case.Reads] at h ⊢
    obtain ⟨x, h1, h2⟩ := h
    exact ⟨x, h1, reads_fill hrq d n x h2⟩
  | .nestedOpt _ d, n, v, h => by
    rw [Case.fill, Case.Reads] at h ⊢
    rcases h with h | ⟨x, h1, h2, h3⟩
    · exact Or.inl h
    · exact Or.inr ⟨x, h1, h2, reads_fill hrq d n x h3⟩
  | .tuple _ c, n, v, h => by
    rw [Case.fill, Case.Reads] at h ⊢
    obtain ⟨env, h1, h2⟩ := h
    exact ⟨env, h1, reads_fill_content hrq c n env h2⟩
end

theorem reads_unfold (ds : Str → Decl) : ∀ (k : Nat) (name : Str) (n : SpannedNode S) v,
    (unfolding ds k name).Reads ptr n v → (unfolding ds (k + 1) name).Reads ptr n v
  | 0, _, n, v, h => by rw [unfolding, Decl.Reads, casesRead] at h; exact h.elim
  | k + 1, name, n, v, h => reads_fill ptr (reads_unfold ds k) (ds name) n v h

theorem reads_unfold_le (ds : Str → Decl) {k j : Nat} (hkj : k ≤ j) {name : Str} {n : SpannedNode S} {v : FVal Leaf}
    (h : (unfolding ds k name).Reads ptr n v) : (unfolding ds j name).Reads ptr n v := by
  induction hkj with
  | refl => exact h
  | step _ ih => exact reads_unfold ptr ds _ name n v ih

/-! ### The functions -/

theorem unfold_node (ds : Str → Decl) (k : Nat) (name : Str) :
    (unfolding ds (k + 1) name).node (E := E) (S := S) ptr = (ds name).body ptr (fun other => (unfolding ds k other).node ptr) :=
  fill_node ptr _ _

/-- One step of the two proofs below. -/
theorem grounded_step {ds : Str → Decl} {rank : Str → Nat} {R K : Nat} (hr : ∀ name, rank name ≤ R)
    (hg : ∀ name, (ds name).Guarded (fun other => rank other < rank name)) {f g : Str → NodeDecoder E S (FVal Leaf)}
    (h : ∀ k name n, Within (k + 1) n → k * (R + 1) + rank name < K → f name n = g name n)
    (k : Nat) (name : Str) (n : SpannedNode S) (hn : Within (k + 1) n) (hk : k * (R + 1) + rank name < K + 1) :
    (ds name).body ptr f n = (ds name).body ptr g n := by
  refine guarded_agree ptr f g k _ (fun other m hm => ?_) (fun other m ho hm => h k other m hm (by omega)) (ds name) (hg name) n hn
  cases k with
  | zero => exact hm.elim
  | succ k =>
    refine h k other m hm ?_
    have := hr other
    rw [Nat.succ_mul] at hk
    omega

theorem decodedBy_rank {ds : Str → Decl} {rank : Str → Nat} {R : Nat} (hr : ∀ name, rank name ≤ R)
    (hg : ∀ name, (ds name).Guarded (fun other => rank other < rank name))
    {dec : Str → NodeDecoder E S (FVal Leaf)} (h : DecodedBy ptr ds dec) :
    ∀ (K k : Nat) (name : Str) (n : SpannedNode S), Within (k + 1) n → k * (R + 1) + rank name < K →
      dec name n = (unfolding ds K name).node ptr n
  | 0, _, _, _, _, hk => absurd hk (by omega)
  | K + 1, k, name, n, hn, hk => by
    rw [h name n, unfold_node]
    exact grounded_step ptr hr hg (decodedBy_rank hr hg h K) k name n hn hk

theorem stable_rank {ds : Str → Decl} {rank : Str → Nat} {R : Nat} (hr : ∀ name, rank name ≤ R)
    (hg : ∀ name, (ds name).Guarded (fun other => rank other < rank name)) (j : Nat) :
    ∀ (K k : Nat) (name : Str) (n : SpannedNode S), Within (k + 1) n → k * (R + 1) + rank name < K →
      (unfolding ds (K + j) name).node (E := E) ptr n = (unfolding ds K name).node ptr n
  | 0, _, _, _, _, hk => absurd hk (by omega)
  | K + 1, k, name, n, hn, hk => by
    rw [show K + 1 + j = (K + j) + 1 by omega, unfold_node, unfold_node]
    exact grounded_step ptr hr hg (f := fun other => (unfolding ds (K + j) other).node ptr) (stable_rank hr hg j K) k name n hn hk

/-- On nodes with less than `k` levels below, all functions that satisfy the equations are the decoders of the
unfoldings of depth `k * (R + 1)`. -/
theorem decodedBy_unfold {ds : Str → Decl} {R : Nat} (hg : Grounded ds R) {dec : Str → NodeDecoder E S (FVal Leaf)}
    (h : DecodedBy ptr ds dec) {K k : Nat} (hK : k * (R + 1) ≤ K) (name : Str) (n : SpannedNode S) (hn : Within k n) :
    dec name n = (unfolding ds K name).node ptr n := by
  obtain ⟨rank, hr⟩ := hg
  cases k with
  | zero => exact hn.elim
  | succ k =>
    have := (hr name).1
    rw [Nat.succ_mul] at hK
    exact decodedBy_rank ptr (fun i => (hr i).1) (fun i => (hr i).2) h K k name n hn (by omega)

theorem unfold_stable {ds : Str → Decl} {R : Nat} (hg : Grounded ds R) (j : Nat) {K k : Nat} (hK : k * (R + 1) ≤ K)
    (name : Str) (n : SpannedNode S) (hn : Within k n) :
    (unfolding ds (K + j) name).node (E := E) ptr n = (unfolding ds K name).node ptr n := by
  obtain ⟨rank, hr⟩ := hg
  cases k with
  | zero => exact hn.elim
  | succ k =>
    have := (hr name).1
    rw [Nat.succ_mul] at hK
    exact stable_rank ptr (fun i => (hr i).1) (fun i => (hr i).2) j K k name n hn (by omega)

omit [Externals] in
theorem exists_within (n : SpannedNode S) : ∃ k, Within k n := node_within n.span n.value

/-- The functions that decode each node by unfoldings that are deep enough. -/
noncomputable def Schema.unfolded (ds : Str → Decl) (R : Nat) : Str → NodeDecoder E S (FVal Leaf) :=
  fun name n => (unfolding ds ((exists_within n).choose * (R + 1)) name).node ptr n

theorem unfolded_eq {ds : Str → Decl} {R : Nat} (hg : Grounded ds R) {K k : Nat} (hK : k * (R + 1) ≤ K) (name : Str)
    (n : SpannedNode S) (hn : Within k n) : unfolded (E := E) ptr ds R name n = (unfolding ds K name).node ptr n := by
  have hc := (exists_within n).choose_spec
  unfold unfolded
  generalize (exists_within n).choose = j at hc
  rcases Nat.le_total (j * (R + 1)) K with h | h
  · obtain ⟨i, rfl⟩ := Nat.exists_eq_add_of_le h
    exact (unfold_stable ptr hg i (Nat.le_refl _) name n hc).symm
  · obtain ⟨i, hi⟩ := Nat.exists_eq_add_of_le h
    rw [hi]
    exact unfold_stable ptr hg i hK name n hn

theorem unfolded_decodedBy {ds : Str → Decl} {R : Nat} (hg : Grounded ds R) : DecodedBy ptr ds (unfolded (E := E) (S := S) ptr ds R) := by
  intro name n
  obtain ⟨k, hk⟩ := exists_within n
  rw [unfolded_eq ptr hg (Nat.le_succ_of_le (Nat.le_refl _)) name n hk, unfold_node]
  exact body_agree ptr _ _ k (fun other m hm => (unfolded_eq ptr hg (Nat.le_refl _) other m hm).symm) (ds name) n hk

end Knuffel
