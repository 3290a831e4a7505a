import Verif.Spec.Alike
import Verif.Props.Meaning
import Verif.Theory.Layout
import Verif.Theory.Print
/-! Lemmas for C85. -/

namespace Knuffel
open Cst

theorem fromString_inj {s t : Str} (h : TypeName.fromString s = TypeName.fromString t) : s = t := by
  have key : ∀ s : Str, (TypeName.fromString s).asStr = s := by
    intro s
    unfold TypeName.fromString
    cases h : BuiltinType.fromStr s with
    | none => rfl
    | some b => exact (fromStr_some h).symm
  rw [← key s, h, key]

theorem types_iff {a b : Option Name} : a.map (fun t => (⟨(), TypeName.fromString t.value⟩ : Spanned TypeName Unit)) =
    b.map (fun t => ⟨(), TypeName.fromString t.value⟩) ↔ a.map Name.value = b.map Name.value := by
  cases a <;> cases b <;> simp
  exact ⟨fromString_inj, fun h => by rw [h]⟩

theorem meaning_parts (v : Val) : v.meaning =
    ⟨v.ty.map (fun t => ⟨(), TypeName.fromString t.value⟩), ⟨(), v.lit.value⟩⟩ := by
  obtain ⟨ty, lit⟩ := v
  cases ty <;> rfl

theorem val_says_iff {v w : Val} : v.meaning = w.meaning ↔ v.says = w.says := by
  rw [meaning_parts, meaning_parts, Value.mk.injEq, types_iff]
  simp [Val.says]

theorem map_says {l m : List Val} : l.map Val.meaning = m.map Val.meaning ↔ l.map Val.says = m.map Val.says := by
  induction l generalizing m with
  | nil => cases m <;> simp
  | cons x l ih => cases m <;> simp [val_says_iff, ih]

theorem opt_says {l m : Option Val} : l.map Val.meaning = m.map Val.meaning ↔ l.map Val.says = m.map Val.says := by
  cases l <;> cases m <;> simp [val_says_iff]

theorem lookup_last (key : Str) (l : List (PropName × Val)) :
    (l.map fun kv => (kv.1.value, kv.2.meaning)).reverse.lookup key =
      (((l.filter fun kv => kv.1.value = key).map Prod.snd).getLast?).map Val.meaning := by
  rw [List.getLast?_eq_head?_reverse, ← List.map_reverse, ← List.map_reverse, ← List.filter_reverse]
  induction l.reverse with
  | nil => rfl
  | cons x l ih =>
    rw [List.map_cons, List.lookup_cons, List.filter_cons]
    by_cases h : x.1.value = key
    · simp [h]
    · have h2 : (key == x.1.value) = false := beq_eq_false_iff_ne.2 (Ne.symm h)
      rw [h2, ih]
      simp [h]

/-- The map of the properties is the same exactly if for each name the last value is. -/
theorem props_iff (l m : List Item) :
    propMap ((writtenProps l).map (fun kv => ((⟨(), kv.1.value⟩ : Spanned Str Unit), kv.2.meaning))) =
      propMap ((writtenProps m).map (fun kv => (⟨(), kv.1.value⟩, kv.2.meaning))) ↔
    ∀ key, (valuesFor key l).getLast?.map Val.says = (valuesFor key m).getLast?.map Val.says := by
  have hl := isPropMap_propMap ((writtenProps l).map (fun kv => (kv.1.value, kv.2.meaning)))
  have hm := isPropMap_propMap ((writtenProps m).map (fun kv => (kv.1.value, kv.2.meaning)))
  rw [List.map_map] at hl hm
  constructor
  · intro h key
    rw [← opt_says]
    have h1 := hl.2 key
    have h2 := hm.2 key
    rw [lookup_last] at h1 h2
    refine h1.symm.trans (Eq.trans ?_ h2)
    exact congrArg (fun m : List (Spanned Str Unit × Value Unit) => (m.map fun kv => (kv.1.value, kv.2)).lookup key) h
  · intro h
    refine c12_unique hl ⟨hm.1, fun key => (hm.2 key).trans ?_⟩
    rw [lookup_last, lookup_last]
    exact (opt_says.2 (h key)).symm

theorem kids_iff (c c' : Option (List NodeC)) :
    c.map (fun l => (⟨(), l.map (fun m => ⟨(), m.meaning⟩)⟩ : Spanned (List (SpannedNode Unit)) Unit)) =
      c'.map (fun l => ⟨(), l.map (fun m => ⟨(), m.meaning⟩)⟩) ↔
    c.isSome = c'.isSome ∧ (c.getD []).map NodeC.meaning = (c'.getD []).map NodeC.meaning := by
  have key : ∀ l m : List NodeC, l.map (fun m => (⟨(), m.meaning⟩ : SpannedNode Unit)) = m.map (fun m => ⟨(), m.meaning⟩) ↔
      l.map NodeC.meaning = m.map NodeC.meaning := by
    intro l m
    induction l generalizing m with
    | nil => cases m <;> simp
    | cons x l ih => cases m <;> simp [ih]
  cases c <;> cases c' <;> simp [key]

theorem node_iff (n n' : NodeC) : n.meaning = n'.meaning ↔
    n.ty.map Name.value = n'.ty.map Name.value ∧ n.name.value = n'.name.value ∧
    (writtenArgs n.items).map Val.says = (writtenArgs n'.items).map Val.says ∧
    (∀ key, (valuesFor key n.items).getLast?.map Val.says = (valuesFor key n'.items).getLast?.map Val.says) ∧
    n.children.written.isSome = n'.children.written.isSome ∧
    (n.children.written.getD []).map NodeC.meaning = (n'.children.written.getD []).map NodeC.meaning := by
  rw [node_meaning n, node_meaning n', Node.mk.injEq, types_iff, map_says, props_iff, kids_iff]
  simp

theorem alike_iff (n n' : NodeC) : Alike n n' ↔
    n.ty.map Name.value = n'.ty.map Name.value ∧ n.name.value = n'.name.value ∧
    (writtenArgs n.items).map Val.says = (writtenArgs n'.items).map Val.says ∧
    (∀ key, (valuesFor key n.items).getLast?.map Val.says = (valuesFor key n'.items).getLast?.map Val.says) ∧
    n.children.written.isSome = n'.children.written.isSome ∧
    Each2 Alike (n.children.written.getD []) (n'.children.written.getD []) :=
  ⟨fun ⟨a, b, c, d, e, f⟩ => ⟨a, b, c, d, e, f⟩, fun ⟨a, b, c, d, e, f⟩ => ⟨a, b, c, d, e, f⟩⟩

mutual
theorem node_alike (n : NodeC) : ∀ n', n.meaning = n'.meaning ↔ Alike n n' := by
  match n with
  | .mk ty name items children space term =>
    intro n'
    rw [node_iff, alike_iff]
    have := children_alike children (n'.children.written.getD [])
    simp only [NodeC.children] at this ⊢
    rw [this]
theorem children_alike (c : ChildrenC) : ∀ l' : List NodeC, (c.written.getD []).map NodeC.meaning = l'.map NodeC.meaning ↔
    Each2 Alike (c.written.getD []) l' := by
  match c with
  | .none => exact nil_alike
  | .some _ (Option.some _) _ => exact nil_alike
  | .some _ Option.none body => exact body_alike body
theorem body_alike (b : BodyC) : ∀ l' : List NodeC, b.top.map NodeC.meaning = l'.map NodeC.meaning ↔ Each2 Alike b.top l' := by
  match b with
  | .nil _ => exact nil_alike
  | .cons _ (Option.some _) _ rest => exact body_alike rest
  | .cons _ Option.none node rest =>
    intro l'
    simp only [BodyC.top]
    cases l' with
    | nil => exact ⟨fun h => (List.cons_ne_nil _ _ h).elim, fun h => nomatch h⟩
    | cons m l' =>
      rw [List.map_cons, List.map_cons, List.cons.injEq, node_alike node m, body_alike rest l']
      exact ⟨fun h => .cons h.1 h.2, fun h => by cases h with | cons a b => exact ⟨a, b⟩⟩
theorem nil_alike (l' : List NodeC) : ([] : List NodeC).map NodeC.meaning = l'.map NodeC.meaning ↔ Each2 Alike [] l' := by
  cases l' with
  | nil => exact ⟨fun _ => .nil, fun _ => rfl⟩
  | cons m l' => exact ⟨fun h => (List.cons_ne_nil _ _ h.symm).elim, fun h => nomatch h⟩
end

theorem meaning_alike (b b' : BodyC) : b.meaning = b'.meaning ↔ Each2 Alike b.top b'.top := by
  rw [← body_alike]
  unfold BodyC.meaning
  rw [Document.mk.injEq, body_top, body_top]
  have := kids_iff (some b.top) (some b'.top)
  simpa using this

/-! ### Another order -/

mutual
theorem node_reorder_self : ∀ n : NodeC, NodeC.Reorders n n
  | .mk _ _ _ children _ _ => .mk (.refl _) rfl (fun _ => rfl) (children_reorder_self children)
theorem children_reorder_self : ∀ c : ChildrenC, ChildrenC.Reorders c c
  | .none => .none
  | .some _ _ body => .some rfl (body_reorder_self body)
theorem body_reorder_self : ∀ b : BodyC, BodyC.Reorders b b
  | .nil _ => .nil
  | .cons _ _ node rest => .cons rfl (node_reorder_self node) (body_reorder_self rest)
end

theorem reordered_items {str fol1} {l1 l2 : List Item} (ho : ItemsOk str fol1 l1)
    (he : (l2.map Item.plain).Perm (l1.map Item.plain)) (hs : ∀ i ∈ l2, i.Safe) (fol2 : Str) : ItemsOk true fol2 l2 := by
  have h1 : ∀ j ∈ l1, j.entry.Ok := by
    clear he
    induction l1 with
    | nil => intro j hj; cases hj
    | cons x l ih =>
      intro j hj
      rcases List.mem_cons.1 hj with rfl | hj
      · exact ho.1.2.2.2
      · exact ih ho.2 j hj
  have h2 : ∀ i ∈ l2, i.entry.Ok := by
    intro i hi
    have := he.mem_iff.1 (List.mem_map_of_mem hi)
    obtain ⟨j, hj, e⟩ := List.mem_map.1 this
    have := congrArg Item.entry e
    simp only [Item.plain] at this
    rw [← this]
    exact h1 j hj
  clear he
  induction l2 with
  | nil => trivial
  | cons x l ih =>
    obtain ⟨g1, g2, g3⟩ := hs x (by simp)
    exact ⟨⟨g1, safe_spaces g2 _, safe_dash g3 _, h2 x (by simp)⟩, ih (fun i hi => hs i (by simp [hi])) fun i hi => h2 i (by simp [hi])⟩

mutual
theorem node_reorder_ok {str fol1} (n1 n2 : NodeC) (ho : n1.Ok str fol1) (he : NodeC.Reorders n1 n2) (hs : n2.Safe) (fol2 : Str) :
    n2.Ok true fol2 := by
  match n1, n2, he with
  | .mk ty1 name1 items1 children1 space1 term1, .mk _ _ items children space term, .mk e1 _ _ e2 =>
    obtain ⟨h1, h2, h3, -, h5, h6, -, -⟩ := ho
    obtain ⟨s1, s2, s3, s4⟩ := hs
    simp only [NodeC.Ok]
    refine ⟨h1, h2, h3, ?_, reordered_items h5 e1 s1 _, children_reorder_ok children1 children h6 e2 s2 _, safe_spaces s3 _,
      safe_term s4 _⟩
    cases name1 with
    | quoted => trivial
    | bare s =>
      simp only [NameEndOk, List.append_assoc]
      exact (good_items s1 (good_children s2 (good_spaces s3 ((good_term s4).append _)))).head
theorem children_reorder_ok {str fol1} (c1 c2 : ChildrenC) (ho : c1.Ok str fol1) (he : ChildrenC.Reorders c1 c2) (hs : c2.Safe)
    (fol2 : Str) : c2.Ok true fol2 := by
  match c1, c2, he with
  | .none, .none, .none => simp only [ChildrenC.Ok]
  | .some space1 dash1 body1, .some space dash body, .some _ e =>
    obtain ⟨-, -, h3⟩ := ho
    simp only [ChildrenC.Safe] at hs
    simp only [ChildrenC.Ok]
    exact ⟨safe_spaces hs.1 _, safe_dash hs.2.1 _, body_reorder_ok body1 body h3 e hs.2.2 _⟩
theorem body_reorder_ok {str fol1} (b1 b2 : BodyC) (ho : b1.Ok str fol1) (he : BodyC.Reorders b1 b2) (hs : b2.Safe) (fol2 : Str) :
    b2.Ok true fol2 := by
  match b1, b2, he with
  | .nil _, .nil lines, .nil => simp only [BodyC.Ok]; exact safe_lines hs _
  | .cons lines1 dash1 node1 rest1, .cons lines dash node rest, .cons _ e1 e2 =>
    obtain ⟨-, -, h3, h4⟩ := ho
    obtain ⟨s1, s2, s3, s4⟩ := hs
    simp only [BodyC.Ok]
    exact ⟨safe_lines s1 _, safe_dash s2 _, node_reorder_ok node1 node h3 e1 s3 _, body_reorder_ok rest1 rest h4 e2 s4 _⟩
end

mutual
theorem node_reorder_alike (n1 n2 : NodeC) (he : NodeC.Reorders n1 n2) : Alike n1 n2 := by
  match n1, n2, he with
  | .mk ty1 name1 items1 children1 space1 term1, .mk _ _ items children space term, .mk _ e1 e2 e3 =>
    obtain ⟨h1, h2⟩ := children_reorder_alike children1 children e3
    exact .mk rfl rfl (congrArg (List.map Val.says) e1) (fun key => by rw [NodeC.items, NodeC.items, e2 key]) h1 h2
theorem children_reorder_alike (c1 c2 : ChildrenC) (he : ChildrenC.Reorders c1 c2) :
    c1.written.isSome = c2.written.isSome ∧ Each2 Alike (c1.written.getD []) (c2.written.getD []) := by
  match c1, c2, he with
  | .none, .none, .none => exact ⟨rfl, .nil⟩
  | .some _ Option.none body1, .some _ Option.none body, .some _ e => exact ⟨rfl, body_reorder_alike body1 body e⟩
  | .some _ (Option.some _) _, .some _ (Option.some _) _, .some _ _ => exact ⟨rfl, .nil⟩
  | .some _ Option.none _, .some _ (Option.some _) _, .some h _ => cases h
  | .some _ (Option.some _) _, .some _ Option.none _, .some h _ => cases h
theorem body_reorder_alike (b1 b2 : BodyC) (he : BodyC.Reorders b1 b2) : Each2 Alike b1.top b2.top := by
  match b1, b2, he with
  | .nil _, .nil _, .nil => exact .nil
  | .cons _ Option.none node1 rest1, .cons _ Option.none node rest, .cons _ e1 e2 =>
    exact .cons (node_reorder_alike node1 node e1) (body_reorder_alike rest1 rest e2)
  | .cons _ (Option.some _) _ rest1, .cons _ (Option.some _) _ rest, .cons _ _ e2 => exact body_reorder_alike rest1 rest e2
  | .cons _ Option.none _ _, .cons _ (Option.some _) _ _, .cons h _ _ => cases h
  | .cons _ (Option.some _) _ _, .cons _ Option.none _ _, .cons h _ _ => cases h
end

end Knuffel
