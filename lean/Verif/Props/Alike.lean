import Verif.Theory.Alike
import Verif.Props.Layout
import Verif.Props.Natural
/-!
# C85: the entries of a node may be written in another order

When two texts are parsed to the same document, and that this does not depend on the order of
properties with different names, nor on where the properties stand among the arguments.
The trees and the relations are in `Spec/Cst.lean` and `Spec/Alike.lean`.
-/

namespace Knuffel
open Cst

/-- `a x=true false y=null` and a line feed. -/
def alikeDemo1 : BodyC :=
  .cons [] none (.mk none (.bare "a".toList)
      [⟨[.ws (.char ' ')], none, .prop (.bare "x".toList) ⟨none, .bool true⟩⟩,
        ⟨[.ws (.char ' ')], none, .arg ⟨none, .bool false⟩⟩,
        ⟨[.ws (.char ' ')], none, .prop (.bare "y".toList) ⟨none, .null⟩⟩] .none [] (.newline .lf)) (.nil [])

/-- `a y=null x=true false;` -/
def alikeDemo2 : BodyC :=
  .cons [] none (.mk none (.bare "a".toList)
      [⟨[.ws (.char ' ')], none, .prop (.bare "y".toList) ⟨none, .null⟩⟩,
        ⟨[.ws (.char ' ')], none, .prop (.bare "x".toList) ⟨none, .bool true⟩⟩,
        ⟨[.ws (.char ' ')], none, .arg ⟨none, .bool false⟩⟩] .none [] .semicolon) (.nil [])

/-- `a y=true y=null "\u{78}"=true false;`, with a value that does not count. -/
def alikeDemo3 : BodyC :=
  .cons [] none (.mk none (.quoted [.plain 'a'])
      [⟨[.ws (.char ' ')], none, .prop (.bare "y".toList) ⟨none, .bool true⟩⟩,
        ⟨[.ws (.char ' ')], none, .prop (.bare "y".toList) ⟨none, .null⟩⟩,
        ⟨[.ws (.char ' ')], none, .prop (.str (.quoted [.unicode "78".toList])) ⟨none, .bool true⟩⟩,
        ⟨[.ws (.char ' ')], none, .arg ⟨none, .bool false⟩⟩] .none [] .semicolon) (.nil [])

theorem alikeDemo_ident : ∀ c ∈ ['a', 'x', 'y'], BareIdent [c] := by
  intro c hc
  have h1 : ∀ c ∈ ['a', 'x', 'y'], IdentChar c := by unfold IdentChar; decide
  have h2 : ∀ c ∈ ['a', 'x', 'y'], c ∉ decDigits ∧ [c] ∉ keywords := by decide
  exact ⟨.inr (.inr ⟨.inl (h1 c hc), (h2 c hc).1⟩), (h2 c hc).2⟩

theorem alikeDemo1_ok : alikeDemo1.Ok true [] := by
  have h := alikeDemo_ident
  simp [alikeDemo1, BodyC.Ok, NodeC.Ok, LinesOk, DashOk, TyOk, Name.Ok, NameStartOk, NameEndOk, ItemsOk, Item.Ok, SpacesOk,
    Space.Ok, Ws.Ok, Entry.Ok, Val.Ok, Lit.Ok, ChildrenC.Ok, Term.Ok, Newline.Ok, itemsText, Item.text, spacesText, PropName.Ok,
    Space.text, Ws.text, BodyC.text, Term.text, ChildrenC.text, linesText, dashText] at h ⊢
  exact ⟨h.1, ⟨by decide, h.2.1, by decide⟩, by decide, h.2.2, by decide⟩

theorem alikeDemo2_safe : alikeDemo2.Safe := by
  simp [alikeDemo2, BodyC.Safe, NodeC.Safe, DashSafe, Item.Safe, Space.Safe, Ws.Safe, Term.Safe, ChildrenC.Safe]
  decide

theorem alikeDemo3_safe : alikeDemo3.Safe := by
  simp [alikeDemo3, BodyC.Safe, NodeC.Safe, DashSafe, Item.Safe, Space.Safe, Ws.Safe, Term.Safe, ChildrenC.Safe]
  decide

theorem alikeDemo_reorders : BodyC.Reorders alikeDemo1 alikeDemo2 := by
  refine .cons rfl (.mk (by decide) (by decide) (fun key => ?_) .none) .nil
  by_cases h1 : "x".toList = key
  · subst h1; decide
  · by_cases h2 : "y".toList = key
    · subst h2; decide
    · simp [valuesFor, writtenProps, PropName.value, List.filter_cons] at h1 h2 ⊢
      simp [h1, h2]

/-- **C85.** Two legal texts are both accepted, and they are parsed to the same document (up to spans) exactly if they say
the same: node by node the same annotation, name, arguments in order, last value of each property, and children. -/
theorem c85_same (b1 b2 : BodyC) (h1 : b1.Ok true []) (h2 : b2.Ok true []) :
    ∃ d1 d2, parseAst b1.text = some (.ok d1) ∧ parseAst b2.text = some (.ok d2) ∧
      (d1.erase = d2.erase ↔ Each2 Alike b1.top b2.top) := by
  obtain ⟨d1, g1, e1⟩ := body_erase h1 rfl
  obtain ⟨d2, g2, e2⟩ := body_erase h2 rfl
  exact ⟨d1, d2, g1, g2, by rw [e1, e2]; exact meaning_alike b1 b2⟩

/-- **C85** for any two accepted texts. -/
theorem c85_accepted (t1 t2 : Str) (d1 d2 : Document (Sp Nat)) (h1 : parseAst t1 = some (.ok d1)) (h2 : parseAst t2 = some (.ok d2)) :
    ∃ b1 b2 : BodyC, b1.Ok false [] ∧ b1.text = t1 ∧ b2.Ok false [] ∧ b2.text = t2 ∧
      (d1.erase = d2.erase ↔ Each2 Alike b1.top b2.top) := by
  obtain ⟨b1, g1, e1, m1⟩ := sound_erase h1
  obtain ⟨b2, g2, e2, m2⟩ := sound_erase h2
  exact ⟨b1, b2, g1, e1, g2, e2, by rw [m1, m2]; exact meaning_alike b1 b2⟩

/-- **C85.** In an accepted text the entries of the nodes may be brought into another order, as long as the arguments keep
theirs and so do the properties of one name (in any layout that is legal everywhere): the result is accepted and gives
the same document (up to spans). -/
theorem c85_reorder (text : Str) (d : Document (Sp Nat)) (h : parseAst text = some (.ok d)) :
    ∃ b1 : BodyC, b1.text = text ∧
      ∀ b2 : BodyC, b2.Safe → BodyC.Reorders b1 b2 →
        ∃ d2, parseAst b2.text = some (.ok d2) ∧ d2.erase = d.erase := by
  obtain ⟨b1, h1, h2, h3⟩ := sound_erase h
  refine ⟨b1, h2, fun b2 hs he => ?_⟩
  obtain ⟨d2, g2, e2⟩ := body_erase (body_reorder_ok b1 b2 h1 he hs []) rfl
  exact ⟨d2, g2, by rw [e2, h3, (meaning_alike b1 b2).2 (body_reorder_alike b1 b2 he)]⟩

example : alikeDemo1.text = "a x=true false y=null\n".toList ∧ alikeDemo2.text = "a y=null x=true false;".toList ∧
    alikeDemo1.Ok true [] ∧ alikeDemo2.Safe ∧ BodyC.Reorders alikeDemo1 alikeDemo2 :=
  ⟨by decide, by decide, alikeDemo1_ok, alikeDemo2_safe, alikeDemo_reorders⟩

/-- Both are legal and say the same, as `c85_same` requires; and both are accepted. -/
example : alikeDemo1.Ok true [] ∧ alikeDemo2.Ok true [] ∧ Each2 Alike alikeDemo1.top alikeDemo2.top ∧
    (∃ d, parseAst alikeDemo1.text = some (.ok d)) ∧ ∃ d, parseAst alikeDemo2.text = some (.ok d) := by
  have h2 := body_reorder_ok _ _ alikeDemo1_ok alikeDemo_reorders alikeDemo2_safe []
  obtain ⟨d1, d2, g1, g2, -⟩ := c85_same _ _ alikeDemo1_ok h2
  exact ⟨alikeDemo1_ok, h2, body_reorder_alike _ _ alikeDemo_reorders, ⟨d1, g1⟩, d2, g2⟩

/-- An earlier value of a property, and how strings are spelled, makes no difference. -/
example : alikeDemo3.text = "\"a\" y=true y=null \"\\u{78}\"=true false;".toList ∧ Each2 Alike alikeDemo2.top alikeDemo3.top := by
  refine ⟨by decide, .cons (.mk rfl rfl rfl (fun key => ?_) rfl .nil) .nil⟩
  by_cases h1 : "x".toList = key
  · subst h1; decide
  · by_cases h2 : "y".toList = key
    · subst h2; decide
    · have h3 : [StrChar.value (.unicode "78".toList)] = "x".toList := by decide
      simp [valuesFor, writtenProps, NodeC.items, PropName.value, StrLit.value, List.filter_cons] at h1 h2 h3 ⊢
      simp [h1, h2, h3]

/-- **C85.** Two neighbours may be exchanged, unless both are arguments or both are properties of the same name. -/
theorem c85_swap (pre post : List Item) (i j : Item)
    (ha : ∀ v w, i.entry = .arg v → j.entry ≠ .arg w)
    (hp : ∀ k v k' w, i.entry = .prop k v → j.entry = .prop k' w → k.value ≠ k'.value)
    (ty : Option Name) (name : Name) (children : ChildrenC) (space : List Space) (term : Term) :
    NodeC.Reorders (.mk ty name (pre ++ i :: j :: post) children space term)
      (.mk ty name (pre ++ j :: i :: post) children space term) := by
  have args : ∀ l m : List Item, writtenArgs (l ++ m) = writtenArgs l ++ writtenArgs m := by
    intro l m
    induction l with
    | nil => rfl
    | cons x l ih =>
      obtain ⟨b, dash, e⟩ := x
      cases dash <;> cases e <;> simp [writtenArgs, ih]
  have props : ∀ l m : List Item, writtenProps (l ++ m) = writtenProps l ++ writtenProps m := by
    intro l m
    induction l with
    | nil => rfl
    | cons x l ih =>
      obtain ⟨b, dash, e⟩ := x
      cases dash <;> cases e <;> simp [writtenProps, ih]
  obtain ⟨b, dash, e⟩ := i
  obtain ⟨b', dash', e'⟩ := j
  refine .mk ?_ ?_ (fun key => ?_) (children_reorder_self children)
  · exact List.Perm.map _ (List.Perm.append_left _ (List.Perm.swap _ _ _))
  · rw [args, args]
    congr 1
    cases dash <;> cases dash' <;> cases e <;> cases e' <;> simp [writtenArgs] at ha ⊢
  · unfold valuesFor
    rw [props, props, List.filter_append, List.filter_append]
    congr 2
    cases dash <;> cases dash' <;> cases e <;> cases e' <;> simp [writtenProps] at hp ⊢
    rename_i k v k' w
    rw [List.filter_cons, List.filter_cons, List.filter_cons, List.filter_cons]
    by_cases h1 : k.value = key
    · have h2 : ¬ k'.value = key := fun h => hp k v k' w rfl rfl rfl rfl (h1.trans h.symm)
      simp [h1, h2]
    · simp [h1]

/-- Exchanging `x=true` and `false` in the first text. -/
example : (∀ v w, Entry.prop (.bare "x".toList) ⟨none, .bool true⟩ = .arg v → Entry.arg ⟨none, .bool false⟩ ≠ .arg w) ∧
    ∀ k v k' w, Entry.prop (.bare "x".toList) ⟨none, .bool true⟩ = .prop k v → Entry.arg ⟨none, .bool false⟩ = .prop k' w →
      k.value ≠ k'.value :=
  ⟨fun _ _ h => (nomatch h), fun _ _ _ _ _ h => (nomatch h)⟩

section
variable {Ty : TypeId → Type} {α β : Type}

/-- **C85** with C65: texts that say the same are decoded to the same value, or rejected with the same errors, up to spans. -/
theorem c85_decode {h : α → β} {d : ChildrenDecoder (Extensions Ty) (Sp Nat) α}
    {d0 : ChildrenDecoder (Extensions Ty) (Sp Unit) β} (hd : ChildrenAgree blankSpan h d d0) {b1 b2 : BodyC}
    (h1 : b1.Ok true []) (h2 : b2.Ok true []) (he : Each2 Alike b1.top b2.top) :
    mapResult blankSpan h (parseDecode d b1.text) = mapResult blankSpan h (parseDecode d b2.text) := by
  obtain ⟨d1, d2, p1, p2, p3⟩ := c85_same b1 b2 h1 h2
  exact c65_same_document hd p1 p2 (p3.2 he)

/-- The two texts above, decoded to nodes of the syntax tree. -/
example : mapResult blankSpan (List.map (mapNode blankSpan))
      (parseDecode (T := Ty) (vecChildren (astSpannedDecoder SpanDecoder.same)) alikeDemo1.text) =
    mapResult blankSpan (List.map (mapNode blankSpan))
      (parseDecode (T := Ty) (vecChildren (astSpannedDecoder SpanDecoder.same)) alikeDemo2.text) :=
  c85_decode (d0 := vecChildren (astSpannedDecoder SpanDecoder.same))
    (c65_containers (c65_ast c65_spans.1).2.2).2 alikeDemo1_ok
    (body_reorder_ok _ _ alikeDemo1_ok alikeDemo_reorders alikeDemo2_safe []) (body_reorder_alike _ _ alikeDemo_reorders)
end

end Knuffel
