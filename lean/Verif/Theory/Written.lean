import Verif.Spec.Written
import Verif.Theory.Nested
import Verif.Theory.Order
/-!
# What was written, and the meaning without spans
-/

namespace Knuffel
open Cst

/-! ### Without spans, the position does not matter -/

/-- No spans. -/
abbrev noSpan : Nat → Nat → Unit := fun _ _ => ()

theorem tyValue_pos (p q : Nat) (t : Option Name) : tyValue noSpan p t = tyValue noSpan q t := by
  cases t <;> rfl

theorem val_pos (p q : Nat) (v : Val) : v.value noSpan p = v.value noSpan q := by
  unfold Val.value
  rw [tyValue_pos p q]

theorem val_meaning (p : Nat) (v : Val) : v.value noSpan p = v.meaning := val_pos p 0 v

theorem itemsArgs_meaning (l : List Item) : ∀ p, itemsArgs noSpan p l = (writtenArgs l).map Val.meaning := by
  induction l with
  | nil => intro p; rfl
  | cons i l ih =>
    intro p
    obtain ⟨b, d, e⟩ := i
    cases d with
    | some d => simp only [itemsArgs, writtenArgs]; exact ih _
    | none =>
      cases e with
      | prop n v => simp only [itemsArgs, writtenArgs]; exact ih _
      | arg v => simp only [itemsArgs, writtenArgs, List.map_cons, ih, val_meaning]

theorem itemsProps_meaning (l : List Item) : ∀ p, itemsProps noSpan p l =
    (writtenProps l).map (fun kv => (⟨(), kv.1.value⟩, kv.2.meaning)) := by
  induction l with
  | nil => intro p; rfl
  | cons i l ih =>
    intro p
    obtain ⟨b, d, e⟩ := i
    cases d with
    | some d => simp only [itemsProps, writtenProps]; exact ih _
    | none =>
      cases e with
      | arg v => simp only [itemsProps, writtenProps]; exact ih _
      | prop n v => simp only [itemsProps, writtenProps, List.map_cons, ih, val_meaning]

mutual
theorem node_pos (p q : Nat) (n : NodeC) : n.value noSpan p = n.value noSpan q := by
  match n with
  | .mk ty name items children space term =>
    simp only [NodeC.value, itemsArgs_meaning, itemsProps_meaning]
    rw [tyValue_pos p q, children_pos _ (q + (tyText ty ++ name.text ++ itemsText items).length) children]
theorem children_pos (p q : Nat) (c : ChildrenC) : c.value noSpan p = c.value noSpan q := by
  match c with
  | .none => simp only [ChildrenC.value]
  | .some space (some d) body => simp only [ChildrenC.value]
  | .some space none body =>
    simp only [ChildrenC.value]
    rw [body_pos _ (q + (spacesText space).length + 1) body]
theorem body_pos (p q : Nat) (b : BodyC) : b.value noSpan p = b.value noSpan q := by
  match b with
  | .nil lines => simp only [BodyC.value]
  | .cons lines (some d) node rest =>
    simp only [BodyC.value]
    exact body_pos _ _ rest
  | .cons lines none node rest =>
    simp only [BodyC.value]
    rw [body_pos _ (q + (linesText lines ++ dashText none).length + node.text.length) rest,
      node_pos _ (q + (linesText lines ++ dashText none).length) node]
end

theorem node_span (p : Nat) (n : NodeC) : n.value noSpan p = ⟨(), n.meaning⟩ := by
  rw [NodeC.meaning, node_pos p 0 n]

theorem body_top (p : Nat) (b : BodyC) : b.value noSpan p = b.top.map (fun n => ⟨(), n.meaning⟩) := by
  match b with
  | .nil lines => simp [BodyC.value, BodyC.top]
  | .cons lines (some d) node rest =>
    simp only [BodyC.value, BodyC.top]
    exact body_top _ rest
  | .cons lines none node rest =>
    simp only [BodyC.value, BodyC.top, List.map_cons, node_span]
    rw [body_top _ rest]

theorem children_written (p : Nat) (c : ChildrenC) : c.value noSpan p =
    c.written.map (fun l => ⟨(), l.map (fun n => ⟨(), n.meaning⟩)⟩) := by
  cases c with
  | none => simp [ChildrenC.value, ChildrenC.written]
  | some space dash body =>
    cases dash with
    | some d => simp [ChildrenC.value, ChildrenC.written]
    | none => simp [ChildrenC.value, ChildrenC.written, body_top]

/-- The meaning of a node. -/
theorem node_meaning (n : NodeC) : n.meaning =
    .mk (n.ty.map (fun t => ⟨(), TypeName.fromString t.value⟩)) ⟨(), n.name.value⟩
      ((writtenArgs n.items).map Val.meaning)
      (propMap ((writtenProps n.items).map (fun kv => (⟨(), kv.1.value⟩, kv.2.meaning))))
      (n.children.written.map (fun l => ⟨(), l.map (fun m => ⟨(), m.meaning⟩)⟩)) := by
  cases n with
  | mk ty name items children space term =>
    simp only [NodeC.meaning, NodeC.value, NodeC.ty, NodeC.name, NodeC.items, NodeC.children, itemsArgs_meaning,
      itemsProps_meaning, children_written]
    congr 1
    cases ty <;> rfl

mutual
theorem node_live (n : NodeC) : n.meaning.allBelow = n.live.map NodeC.meaning := by
  match n with
  | .mk ty name items children space term =>
    have hc := children_live (0 + (tyText ty ++ name.text ++ itemsText items).length) children
    simp only [NodeC.live, List.map_cons]
    rw [← hc]
    simp only [NodeC.meaning, NodeC.value, Node.allBelow]
theorem children_live (p : Nat) (c : ChildrenC) : childrenBelow (c.value noSpan p) = c.live.map NodeC.meaning := by
  match c with
  | .none => simp [ChildrenC.value, childrenBelow, ChildrenC.live]
  | .some space (some d) body => simp [ChildrenC.value, childrenBelow, ChildrenC.live]
  | .some space none body =>
    simp only [ChildrenC.value, childrenBelow, ChildrenC.live]
    exact body_live _ body
theorem body_live (p : Nat) (b : BodyC) : nodesBelow (b.value noSpan p) = b.live.map NodeC.meaning := by
  match b with
  | .nil lines => simp [BodyC.value, nodesBelow, BodyC.live]
  | .cons lines (some d) node rest =>
    simp only [BodyC.value, BodyC.live]
    exact body_live _ rest
  | .cons lines none node rest =>
    simp only [BodyC.value, BodyC.live, List.map_append, node_span, nodesBelow]
    rw [body_live _ rest, node_live node]
end

theorem meaning_allNodes (b : BodyC) : b.meaning.allNodes = b.live.map NodeC.meaning := body_live 0 b

/-! ### Pieces of the text -/

theorem at_mk {text u piece w : Str} {i j : Nat} (h : text = u ++ piece ++ w) (hi : i = u.length)
    (hj : j = u.length + piece.length) : PieceAt text (byteSpan text i j) piece := by
  refine ⟨u, w, h, ?_⟩
  subst hi hj h
  unfold byteSpan
  congr 2
  · rw [List.append_assoc, List.take_left]
  · rw [← List.length_append, List.take_left]

theorem written_ty {text u w : Str} {ty : Option Name} (h : text = u ++ tyText ty ++ w) (hok : TyOk ty) {p : Nat}
    (hp : p = u.length) : ∀ t, tyValue (byteSpan text) p ty = some t → WrittenType text t := by
  intro t ht
  cases ty with
  | none => simp [tyValue] at ht
  | some n =>
    simp only [tyValue, Option.some.injEq] at ht
    subst ht
    exact ⟨n, hok, at_mk h hp (by rw [hp]; rfl), rfl⟩

theorem written_val {text u w : Str} {v : Val} (h : text = u ++ v.text ++ w) (hok : v.Ok) {p : Nat}
    (hp : p = u.length) : WrittenValue text (v.value (byteSpan text) p) := by
  unfold Val.text at h
  refine ⟨written_ty (u := u) (w := v.lit.text ++ w) (by simp [h]) hok.1 hp, v.lit, hok.2, ?_, rfl⟩
  refine at_mk (u := u ++ tyText v.ty) (w := w) (by simp [h]) (by simp [hp]) (by simp [hp])

theorem written_args {text w : Str} {str : Bool} {fol : Str} (l : List Item) : ∀ {u : Str} {p : Nat},
    text = u ++ itemsText l ++ w → ItemsOk str fol l → p = u.length →
    ∀ v ∈ itemsArgs (byteSpan text) p l, WrittenValue text v := by
  induction l with
  | nil => intro u p _ _ _ v hv; simp [itemsArgs] at hv
  | cons i l ih =>
    intro u p h hok hp
    have h1 := ih (u := u ++ i.text) (p := p + i.text.length) (by simp [h, itemsText]) hok.2 (by simp [hp])
    have hen := hok.1.2.2.2
    unfold itemsArgs
    obtain ⟨bf, d, e⟩ := i
    cases d with
    | some d => exact h1
    | none =>
      cases e with
      | prop _ _ => exact h1
      | arg v =>
        simp only [List.mem_cons, forall_eq_or_imp]
        refine ⟨written_val (u := u ++ spacesText bf) (w := itemsText l ++ w) ?_ hen (by simp [hp, dashText]), h1⟩
        simp [h, itemsText, Item.text, dashText, Entry.text]

theorem written_props {text w : Str} {str : Bool} {fol : Str} (l : List Item) : ∀ {u : Str} {p : Nat},
    text = u ++ itemsText l ++ w → ItemsOk str fol l → p = u.length →
    ∀ kv ∈ itemsProps (byteSpan text) p l, WrittenKey text kv.1 ∧ WrittenValue text kv.2 := by
  induction l with
  | nil => intro u p _ _ _ v hv; simp [itemsProps] at hv
  | cons i l ih =>
    intro u p h hok hp
    have h1 := ih (u := u ++ i.text) (p := p + i.text.length) (by simp [h, itemsText]) hok.2 (by simp [hp])
    have hen := hok.1.2.2.2
    unfold itemsProps
    obtain ⟨bf, d, e⟩ := i
    cases d with
    | some d => exact h1
    | none =>
      cases e with
      | arg _ => exact h1
      | prop k v =>
        have h' : text = u ++ spacesText bf ++ (k.text ++ '=' :: v.text) ++ (itemsText l ++ w) := by
          simp [h, itemsText, Item.text, dashText, Entry.text]
        simp only [List.mem_cons, forall_eq_or_imp]
        refine ⟨⟨⟨k, hen.1, ?_, rfl⟩, ?_⟩, h1⟩
        · exact at_mk (u := u ++ spacesText bf) (w := '=' :: v.text ++ (itemsText l ++ w)) (by simp [h'])
            (by simp [hp, dashText]) (by simp [hp, dashText])
        · exact written_val (u := u ++ spacesText bf ++ k.text ++ ['=']) (w := itemsText l ++ w) (by simp [h']) hen.2
            (by simp [hp, dashText]; omega)

mutual
theorem written_node {text u w : Str} {str : Bool} {fol : Str} {p : Nat} (n : NodeC) (h : text = u ++ n.text ++ w)
    (hok : n.Ok str fol) (hp : p = u.length) : (n.value (byteSpan text) p).value.Written text := by
  match n with
  | .mk ty name items children space term =>
    obtain ⟨h1, h2, h3, h4, h5, h6, h7, h8⟩ := hok
    simp only [NodeC.text] at h
    simp only [NodeC.value, Node.Written]
    refine ⟨?_, ⟨name, h2, ?_, rfl⟩, ?_, ?_, ?_⟩
    · exact written_ty (u := u) (w := name.text ++ itemsText items ++ children.text ++ spacesText space ++ term.text ++ w)
        (by simp [h]) h1 hp
    · exact at_mk (u := u ++ tyText ty) (w := itemsText items ++ children.text ++ spacesText space ++ term.text ++ w)
        (by simp [h]) (by simp [hp]) (by simp [hp])
    · exact written_args (u := u ++ tyText ty ++ name.text) (w := children.text ++ spacesText space ++ term.text ++ w) items
        (by simp [h]) h5 (by simp [hp, Nat.add_assoc])
    · exact propMap_all (P := WrittenKey text) (Q := WrittenValue text)
        (written_props (u := u ++ tyText ty ++ name.text) (w := children.text ++ spacesText space ++ term.text ++ w) items
          (by simp [h]) h5 (by simp [hp, Nat.add_assoc]))
    · exact written_children (u := u ++ tyText ty ++ name.text ++ itemsText items)
        (w := spacesText space ++ term.text ++ w) children (by simp [h]) h6 (by simp [hp, Nat.add_assoc])
theorem written_children {text u w : Str} {str : Bool} {fol : Str} {p : Nat} (c : ChildrenC) (h : text = u ++ c.text ++ w)
    (hok : c.Ok str fol) (hp : p = u.length) : WrittenChildren text (c.value (byteSpan text) p) := by
  match c with
  | .none => simp [ChildrenC.value, WrittenChildren]
  | .some space (some d) body => simp [ChildrenC.value, WrittenChildren]
  | .some space none body =>
    obtain ⟨h1, h2, h3⟩ := hok
    simp only [ChildrenC.text, dashText, List.append_nil] at h
    simp only [ChildrenC.value, WrittenChildren]
    refine ⟨⟨body.text, ?_⟩, ?_⟩
    · exact at_mk (u := u ++ spacesText space) (w := w) (by simp [h]) (by simp [hp]) (by simp [hp]; omega)
    · exact written_body (u := u ++ spacesText space ++ ['{']) (w := '}' :: w) body (by simp [h]) h3 (by simp [hp]; omega)
theorem written_body {text u w : Str} {str : Bool} {fol : Str} {p : Nat} (b : BodyC) (h : text = u ++ b.text ++ w)
    (hok : b.Ok str fol) (hp : p = u.length) : WrittenNodes text (b.value (byteSpan text) p) := by
  match b with
  | .nil lines => simp [BodyC.value, WrittenNodes]
  | .cons lines dash node rest =>
    obtain ⟨h1, h2, h3, h4⟩ := hok
    simp only [BodyC.text] at h
    have hn := written_node (text := text) (u := u ++ linesText lines ++ dashText dash) (w := rest.text ++ w)
      (p := p + (linesText lines ++ dashText dash).length) node (by simp [h]) h3 (by simp [hp, Nat.add_assoc])
    have hr := written_body (text := text) (u := u ++ linesText lines ++ dashText dash ++ node.text) (w := w)
      (p := p + (linesText lines ++ dashText dash).length + node.text.length) rest (by simp [h]) h4 (by simp [hp, Nat.add_assoc])
    cases dash with
    | some d => simp only [BodyC.value]; exact hr
    | none => simp only [BodyC.value, WrittenNodes]; exact ⟨hn, hr⟩
end

/-! ### The property map -/

variable {S : Type}

/-- The entry of a key. -/
def entryOf (k : Str) (l : List (Spanned Str S × Value S)) : Option (Spanned Str S × Value S) :=
  l.find? (fun kv => kv.1.value == k)

theorem propInsert_keys {k : Spanned Str S} {v : Value S} {l : List (Spanned Str S × Value S)} {x : Str} :
    x ∈ (propInsert k v l).map (·.1.value) ↔ x = k.value ∨ x ∈ l.map (·.1.value) := by
  induction l with
  | nil => simp [propInsert]
  | cons y l ih =>
    obtain ⟨k', v'⟩ := y
    unfold propInsert
    split
    · rename_i e; simp [e]
    · split
      · simp
      · simp only [List.map_cons, List.mem_cons, ih]
        grind

theorem propInsert_sorted {k : Spanned Str S} {v : Value S} {l : List (Spanned Str S × Value S)}
    (h : (l.map (·.1.value)).Pairwise (· < ·)) : ((propInsert k v l).map (·.1.value)).Pairwise (· < ·) := by
  induction l with
  | nil => simp [propInsert]
  | cons y l ih =>
    obtain ⟨k', v'⟩ := y
    simp only [List.map_cons, List.pairwise_cons] at h
    unfold propInsert
    split
    · simp only [List.map_cons, List.pairwise_cons]; exact h
    · rename_i hne
      split
      · rename_i hlt
        have hlt' := (strLt_iff _ _).1 hlt
        simp only [List.map_cons, List.pairwise_cons, List.mem_cons, forall_eq_or_imp]
        refine ⟨⟨hlt', ?_⟩, h⟩
        intro x hx
        exact (strLt_iff _ _).1 (strLt_trans hlt ((strLt_iff _ _).2 (h.1 x hx)))
      · rename_i hnl
        have hlt : strLt k'.value k.value = true := by
          rcases strLt_total k.value k'.value with h1 | h1 | h1
          · exact absurd h1 hnl
          · exact absurd h1 hne
          · exact h1
        simp only [List.map_cons, List.pairwise_cons]
        refine ⟨?_, ih h.2⟩
        intro x hx
        rcases propInsert_keys.1 hx with rfl | hx
        · exact (strLt_iff _ _).1 hlt
        · exact h.1 x hx

theorem entryOf_none {x : Str} {l : List (Spanned Str S × Value S)} (h : x ∉ l.map (·.1.value)) : entryOf x l = none := by
  unfold entryOf
  rw [List.find?_eq_none]
  intro kv hkv e
  exact h (List.mem_map.2 ⟨kv, hkv, beq_iff_eq.1 e⟩)

theorem propInsert_entry {k : Spanned Str S} {v : Value S} {l : List (Spanned Str S × Value S)} (x : Str)
    (hs : (l.map (·.1.value)).Pairwise (· < ·)) :
    entryOf x (propInsert k v l) =
      if k.value = x then some (((entryOf x l).map (·.1)).getD k, v) else entryOf x l := by
  induction l with
  | nil =>
    by_cases h : k.value = x <;> simp [propInsert, entryOf, h]
  | cons y l ih =>
    obtain ⟨k', v'⟩ := y
    unfold propInsert
    split
    · rename_i e
      by_cases h : k.value = x
      · have : k'.value = x := e ▸ h
        simp [entryOf, h, this]
      · have : k'.value ≠ x := e ▸ h
        simp [entryOf, h, this]
    · rename_i hne
      split
      · rename_i hlt
        by_cases h : k.value = x
        · have h1 : entryOf x ((k', v') :: l) = none := by
            refine entryOf_none ?_
            simp only [List.map_cons, List.mem_cons, not_or]
            simp only [List.map_cons, List.pairwise_cons] at hs
            refine ⟨fun e => hne (h.trans e), fun hx => ?_⟩
            have := strLt_trans hlt ((strLt_iff _ _).2 (hs.1 x hx))
            rw [h, strLt_irrefl] at this
            simp at this
          rw [h1]
          simp [entryOf, h]
        · simp [entryOf, h]
      · simp only [List.map_cons, List.pairwise_cons] at hs
        have ih' := ih hs.2
        unfold entryOf at ih' ⊢
        by_cases h : k'.value = x
        · have h1 : k.value ≠ x := fun e => hne (e.trans h.symm)
          simp [h, h1]
        · simp [h, ih']

theorem propMap_snoc (l : List (Spanned Str S × Value S)) (kv) :
    propMap (l ++ [kv]) = propInsert kv.1 kv.2 (propMap l) := by simp [propMap]

theorem propMap_sorted (l : List (Spanned Str S × Value S)) : ((propMap l).map (·.1.value)).Pairwise (· < ·) := by
  suffices ∀ n, ∀ l : List (Spanned Str S × Value S), l.length = n → ((propMap l).map (·.1.value)).Pairwise (· < ·) from
    this _ l rfl
  intro n
  induction n with
  | zero => intro l hl; rw [List.length_eq_zero_iff.1 hl]; simp [propMap]
  | succ n ih =>
    intro l hl
    rcases List.eq_nil_or_concat l with rfl | ⟨a, c, rfl⟩
    · simp at hl
    · rw [List.concat_eq_append] at hl ⊢
      rw [propMap_snoc]
      exact propInsert_sorted (ih a (by simpa using hl))

/-- The key of the first occurrence with the value of the last one. -/
theorem propMap_entry (x : Str) (l : List (Spanned Str S × Value S)) :
    entryOf x (propMap l) = match entryOf x l, entryOf x l.reverse with
      | some (k, _), some (_, v) => some (k, v)
      | _, _ => none := by
  suffices ∀ n, ∀ l : List (Spanned Str S × Value S), l.length = n →
      entryOf x (propMap l) = match entryOf x l, entryOf x l.reverse with
      | some (k, _), some (_, v) => some (k, v)
      | _, _ => none from this _ l rfl
  intro n
  induction n with
  | zero => intro l hl; rw [List.length_eq_zero_iff.1 hl]; rfl
  | succ n ih =>
    intro l hl
    rcases List.eq_nil_or_concat l with rfl | ⟨a, c, rfl⟩
    · simp at hl
    · rw [List.concat_eq_append] at hl ⊢
      rw [propMap_snoc, propInsert_entry x (propMap_sorted a), ih a (by simpa using hl)]
      have hrev : entryOf x (a ++ [c]).reverse = if c.1.value = x then some c else entryOf x a.reverse := by
        unfold entryOf
        rw [List.reverse_append, List.reverse_singleton, List.singleton_append, List.find?_cons]
        by_cases h : c.1.value = x
        · simp [h]
        · rw [if_neg h, show (c.1.value == x) = false from beq_eq_false_iff_ne.2 h]
      have hfst : entryOf x (a ++ [c]) = match entryOf x a with
          | some y => some y
          | none => if c.1.value = x then some c else none := by
        unfold entryOf
        rw [List.find?_append]
        by_cases h : c.1.value = x <;> cases List.find? (fun kv : Spanned Str S × Value S => kv.1.value == x) a <;> simp [h]
      have hiff : (entryOf x a).isSome = (entryOf x a.reverse).isSome := by
        unfold entryOf
        rw [Bool.eq_iff_iff, List.find?_isSome, List.find?_isSome]
        simp
      rw [hrev, hfst]
      by_cases h : c.1.value = x
      · rw [if_pos h, if_pos h, if_pos h]
        cases h1 : entryOf x a with
        | none => simp
        | some y =>
          cases h2 : entryOf x a.reverse with
          | none => rw [h1, h2] at hiff; simp at hiff
          | some z => simp
      · rw [if_neg h, if_neg h, if_neg h]
        cases h1 : entryOf x a with
        | none => simp
        | some y => simp

end Knuffel
