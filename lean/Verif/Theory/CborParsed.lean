import Verif.Theory.CborFormat
import Verif.Theory.CborDecode
import Verif.Props.Spans
import Verif.Props.Total
/-!
# Which documents parsing gives: spans, type names and properties
-/

namespace Knuffel
open Cbor

/-! ### Documents that satisfy what is needed -/

mutual
theorem Node.Meets.mono {S : Type} {P P' : S → Prop} {Q Q' : TypeName → Prop} (hp : ∀ s, P s → P' s) (hq : ∀ t, Q t → Q' t)
    (n : Node S) (h : n.Meets P Q) : n.Meets P' Q' := by
  obtain ⟨t, name, args, props, children⟩ := n
  unfold Node.Meets at h ⊢
  have hv : ∀ v : Value S, v.Meets P Q → v.Meets P' Q' := fun v hv =>
    ⟨fun t ht => ⟨hp _ (hv.1 t ht).1, hq _ (hv.1 t ht).2⟩, hp _ hv.2⟩
  exact ⟨fun x hx => ⟨hp _ (h.1 x hx).1, hq _ (h.1 x hx).2⟩, hp _ h.2.1, fun v hm => hv v (h.2.2.1 v hm),
    fun kv hm => ⟨hp _ (h.2.2.2.1 kv hm).1, hv _ (h.2.2.2.1 kv hm).2⟩, h.2.2.2.2.1, childrenMeet_mono hp hq children h.2.2.2.2.2⟩
theorem childrenMeet_mono {S : Type} {P P' : S → Prop} {Q Q' : TypeName → Prop} (hp : ∀ s, P s → P' s) (hq : ∀ t, Q t → Q' t)
    (c : Option (Spanned (List (Spanned (Node S) S)) S)) (h : ChildrenMeet P Q c) : ChildrenMeet P' Q' c := by
  match c with
  | none => trivial
  | some ⟨s, l⟩ => exact ⟨hp _ h.1, nodesMeet_mono hp hq l h.2⟩
theorem nodesMeet_mono {S : Type} {P P' : S → Prop} {Q Q' : TypeName → Prop} (hp : ∀ s, P s → P' s) (hq : ∀ t, Q t → Q' t)
    (l : List (Spanned (Node S) S)) (h : NodesMeet P Q l) : NodesMeet P' Q' l := by
  match l with
  | [] => trivial
  | ⟨s, n⟩ :: l => exact ⟨hp _ h.1, Node.Meets.mono hp hq n h.2.1, nodesMeet_mono hp hq l h.2.2⟩
end

theorem Document.Meets.mono {S : Type} {P P' : S → Prop} {Q Q' : TypeName → Prop} {d : Document S} (h : d.Meets P Q)
    (hp : ∀ s, P s → P' s) (hq : ∀ t, Q t → Q' t) : d.Meets P' Q' := nodesMeet_mono hp hq d.nodes h

theorem value_meets {S : Type} {P : S → Prop} {Q : TypeName → Prop} {v : Value S} (h1 : v.AllSpans P) (h2 : (v.mapSpan fun _ => ()).Printable Q) :
    v.Meets P Q := by
  obtain ⟨t, l⟩ := v
  refine ⟨fun x hx => ⟨h1.1 x hx, ?_⟩, h1.2⟩
  have := h2.1
  simp only at hx
  subst hx
  exact this _ rfl

mutual
theorem node_meets {S : Type} {R : S → S → Prop} {P : S → Prop} {Q : TypeName → Prop} (hp : ∀ a b, R a b → P a) (outer : S)
    (n : Node S) (h1 : n.Nested R outer) (h2 : (n.mapSpan fun _ => ()).Printable Q) : n.Meets P Q := by
  obtain ⟨t, name, args, props, children⟩ := n
  unfold Node.Nested at h1
  unfold Node.mapSpan Node.Printable at h2
  unfold Node.Meets
  have hv : ∀ v : Value S, v.AllSpans (R · outer) → v.AllSpans P := fun v hv => ⟨fun x hx => hp _ _ (hv.1 x hx), hp _ _ hv.2⟩
  refine ⟨fun x hx => ⟨hp _ _ (h1.1 x hx), ?_⟩, hp _ _ h1.2.1, fun v hm => value_meets (hv v (h1.2.2.1 v hm)) ?_,
    fun kv hm => ⟨hp _ _ (h1.2.2.2.1 kv hm).1, value_meets (hv _ (h1.2.2.2.1 kv hm).2) ?_⟩, ?_,
    childrenMeet_of hp outer children h1.2.2.2.2 h2.2.2.2.2⟩
  · subst hx
    exact h2.1 _ rfl
  · exact h2.2.1 _ (List.mem_map_of_mem hm)
  · exact h2.2.2.1 _ (List.mem_map_of_mem hm)
  · have := h2.2.2.2.1
    simpa [mapProps, Function.comp_def, Spanned.mapSpan] using this
theorem childrenMeet_of {S : Type} {R : S → S → Prop} {P : S → Prop} {Q : TypeName → Prop} (hp : ∀ a b, R a b → P a) (outer : S)
    (c : Option (Spanned (List (Spanned (Node S) S)) S)) (h1 : NestedChildren R outer c) (h2 : PrintableChildren Q (mapChildren (fun _ => ()) c)) :
    ChildrenMeet P Q c := by
  match c with
  | none => trivial
  | some ⟨s, l⟩ => exact ⟨hp _ _ h1.1, nodesMeet_of hp s l h1.2 h2⟩
theorem nodesMeet_of {S : Type} {R : S → S → Prop} {P : S → Prop} {Q : TypeName → Prop} (hp : ∀ a b, R a b → P a) (outer : S)
    (l : List (Spanned (Node S) S)) (h1 : NestedNodes R outer l) (h2 : PrintableNodes Q (mapNodes (fun _ => ()) l)) : NodesMeet P Q l := by
  match l with
  | [] => trivial
  | ⟨s, n⟩ :: l => exact ⟨hp _ _ h1.1, node_meets hp s n h1.2.1 h2.1, nodesMeet_of hp outer l h1.2.2 h2.2⟩
end

mutual
theorem node_mapSpan_erase {S T : Type} (g : S → T) (n : Node S) : (n.mapSpan g).mapSpan (fun _ => ()) = n.mapSpan fun _ => () := by
  obtain ⟨t, name, args, props, children⟩ := n
  have hv : ∀ v : Value S, (v.mapSpan g).mapSpan (fun _ => ()) = v.mapSpan fun _ => () := by
    rintro ⟨t, l⟩; cases t <;> rfl
  simp only [Node.mapSpan]
  rw [mapChildren_erase g children]
  congr 1
  · cases t <;> rfl
  · simp [hv]
  · simp [mapProps, hv, Spanned.mapSpan]
theorem mapChildren_erase {S T : Type} (g : S → T) (c : Option (Spanned (List (Spanned (Node S) S)) S)) :
    mapChildren (fun _ => ()) (mapChildren g c) = mapChildren (fun _ => ()) c := by
  match c with
  | none => rfl
  | some ⟨s, l⟩ =>
    show some (⟨(), mapNodes (fun _ => ()) (mapNodes g l)⟩ : Spanned _ _) = some ⟨(), mapNodes (fun _ => ()) l⟩
    rw [mapNodes_erase g l]
theorem mapNodes_erase {S T : Type} (g : S → T) (l : List (Spanned (Node S) S)) :
    mapNodes (fun _ => ()) (mapNodes g l) = mapNodes (fun _ => ()) l := by
  match l with
  | [] => rfl
  | ⟨s, n⟩ :: l =>
    show (⟨(), (n.mapSpan g).mapSpan fun _ => ()⟩ : Spanned _ _) :: mapNodes (fun _ => ()) (mapNodes g l) =
      ⟨(), n.mapSpan fun _ => ()⟩ :: mapNodes (fun _ => ()) l
    rw [node_mapSpan_erase g n, mapNodes_erase g l]
end

theorem erase_mapSpan {S T : Type} (g : S → T) (d : Document S) : (d.mapSpan g).erase = d.erase :=
  congrArg Document.mk (mapNodes_erase g d.nodes)

theorem boundary_le {text : Str} {n : Nat} (h : Boundary text n) : n ≤ byteLen text := by
  obtain ⟨a, b, rfl, rfl⟩ := h
  rw [byteLen_append]; omega

/-- A document from a text that is not too large. -/
theorem parsed_meets {text : Str} {d : Document (Sp Nat)} (h : parseAst text = some (.ok d)) (ht : byteLen text < 2 ^ 64) :
    d.Meets Sp.Usize ReadableType :=
  nodesMeet_of (R := Inside text) (fun _ _ hab => ⟨Nat.lt_of_le_of_lt (boundary_le hab.1) ht, Nat.lt_of_le_of_lt (boundary_le hab.2.1) ht⟩)
    _ d.nodes (c20_spans_nest text d h) (parsed_printable h)

/-- The same with lines and columns. -/
theorem parsed_meets_line {width : Char → Nat} {strWidth : Str → Nat} {text : Str} {d : Document (Sp LinePos)}
    (h : parseAstLine width strWidth text = some (.ok d)) (ht : ∀ i, (linePos width (text.take i)).Usize) :
    d.Meets Sp.LineUsize ReadableType := by
  refine nodesMeet_of (fun a _ hab => ?_) _ d.nodes (c22_lines width strWidth text d h) ?_
  · obtain ⟨i, j, _, _, rfl⟩ := hab
    exact ⟨ht i, ht j⟩
  · rcases c21_line_agrees width strWidth text with ⟨d', h1, h2⟩ | ⟨es, h1, _⟩
    · rw [h] at h1
      cases h1
      have := parsed_printable h2
      rw [erase_mapSpan] at this
      exact this
    · rw [h] at h1; cases h1

end Knuffel
