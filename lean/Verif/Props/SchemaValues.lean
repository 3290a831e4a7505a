import Verif.Theory.SchemaValues
import Verif.Props.Schema
import Verif.Props.Print
/-!
# C73: what comes out of `parse` is exactly the values of the declared type

`Spec/SchemaValues.lean` says which values a declared type has, in terms of the declaration alone.
Whatever text is read, the value is one of these: numbers are in range, maps are sorted and without
the names that have fields of their own, and so on.  And for each of these values there is a text
that is read as it.
-/

namespace Knuffel
open Schema

section
variable [Externals] {Ty : TypeId → Type} (ptr : Nat)

/-- **C73.** Which value is read does not depend on where the parts of the node are. -/
theorem c73_spans {S T : Type} (g : S → T) (d : Decl) (n : SpannedNode S) (v : FVal Leaf) :
    d.Reads ptr (mapNode g n) v ↔ d.Reads ptr n v := decl_spans ptr g d n v

omit [Externals] in
/-- The nodes of a document from a text, and their forms without spans. -/
theorem erased_nodes (doc : Document (Sp Nat)) : doc.erase.nodes = doc.nodes.map (mapNode fun _ => ()) := mapNodes_eq _ _

omit [Externals] in
/-- Each list of nodes that can be written is, but for the spans, that of some text. -/
theorem text_of_nodes {l : List (SpannedNode Unit)} (h : ∀ m ∈ l, m.value.Printable ReadableType) :
    ∃ text doc, parseAst text = some (.ok doc) ∧ doc.nodes.map (mapNode fun _ => ()) = l := by
  obtain ⟨doc, h1, h2⟩ := c03_roundtrip_partial ⟨l⟩ ((printableNodes_iff l).2 h)
  refine ⟨_, doc, h1, ?_⟩
  rw [← erased_nodes, h2]

omit [Externals] in
theorem nodes_of_text {text : Str} {doc : Document (Sp Nat)} (h : parseAst text = some (.ok doc)) :
    ∀ m ∈ doc.nodes.map (mapNode fun _ => ()), m.value.Printable ReadableType := by
  rw [← erased_nodes]
  exact (printableNodes_iff _).1 (parsed_printable h)

/-- **C73** for `parse` with a `Vec`: the lists that come out of some text are exactly the lists of values
of the type. -/
theorem c73_vec (d : Decl) (hd : d.Proper) (vs : List (FVal Leaf)) :
    (∃ text, parseDecode (T := Ty) (vecChildren (d.node ptr)) text = some (.ok vs)) ↔ ∀ v ∈ vs, ∃ name, d.Has ptr name false v := by
  simp only [c72_parse_vec ptr d hd]
  constructor
  · rintro ⟨text, doc, h1, h2⟩ v hv
    obtain ⟨n, hn, hr⟩ := each2_right h2 hv
    refine ⟨_, decl_has ptr d false (mapNode (fun _ => ()) n) v (nodes_of_text h1 _ (List.mem_map.2 ⟨n, hn, rfl⟩)) (by simp) ?_⟩
    exact (decl_spans ptr _ d n v).2 hr
  · intro h
    obtain ⟨l, h1, h2⟩ := each2_of_all (P := fun m : SpannedNode Unit => m.value.Printable ReadableType) (R := d.Reads ptr) (l' := vs) (by
      intro v hv
      obtain ⟨name, hv⟩ := h v hv
      obtain ⟨n, h1, -, -, h2⟩ := decl_write ptr d name false v hd hv
      exact ⟨n, h1, h2⟩)
    obtain ⟨text, doc, h3, h4⟩ := text_of_nodes h1
    refine ⟨text, doc, h3, ?_⟩
    rw [← h4, each2_map] at h2
    exact h2.imp fun n v => (decl_spans ptr _ d n v).1

/-- **C73** for `parse` with a struct that has children (and fields without attributes) only. -/
theorem c73_root (extras : List (AttrAccess × FVal Leaf)) (kids : List Kid) (restKids : RestKids)
    (hp : (Content.mk [] none [] none kids restKids).Proper) (v : FVal Leaf) :
    (∃ text, parseDecode (T := Ty) (Own.into ptr { extras := extras } ((Content.mk [] none [] none kids restKids).struct ptr)).root text = some (.ok v)) ↔
      (Content.mk [] none [] none kids restKids).HasRoot ptr extras v := by
  simp only [c72_parse ptr extras kids restKids hp, Content.ReadsRoot, Content.HasRoot]
  constructor
  · rintro ⟨text, doc, h1, env, rfl, h2, h3, h4⟩
    have hpr := nodes_of_text h1
    refine ⟨env, rfl, ?_⟩
    rw [Content.Has.eq_def]
    refine ⟨h2, ⟨0, by simp, trivial⟩, by simp, trivial, kids_have ptr kids _ env hpr ((kids_spans ptr _ kids _ env).2 h3), ?_⟩
    refine restKids_have ptr restKids _ _ env ?_ ((restKids_spans ptr (fun _ => ()) restKids _ env).2 h4)
    intro m hm
    obtain ⟨m', hm', rfl⟩ := List.mem_map.1 hm
    rw [List.mem_filter] at hm'
    refine ⟨hpr _ (List.mem_map.2 ⟨m', hm'.1, rfl⟩), ?_⟩
    rw [mapNode_nodeName]
    simpa [Spanned.mapSpan] using hm'.2
  · rintro ⟨env, rfl, h⟩
    rw [Content.Has.eq_def] at h
    obtain ⟨h1, -, -, -, h6, h7⟩ := h
    rw [Content.Proper] at hp
    obtain ⟨q1, q2, q3, q4, q5⟩ := hp
    obtain ⟨args, props, nodes, h2, h3⟩ := content_write ptr (.mk [] none [] none kids restKids) none [] env
      (by rw [Content.Proper]; exact ⟨q1, q2, q3, q4, q5⟩)
      (by rw [Content.Has.eq_def]; exact ⟨h1, ⟨0, by simp, trivial⟩, by simp, trivial, h6, h7⟩) (by simp)
    rw [Content.Reads.eq_def] at h3
    obtain ⟨-, -, -, -, -, h4, h5⟩ := h3
    obtain ⟨text, doc, h8, h9⟩ := text_of_nodes (l := nodes) ((printable_iff _).1 h2).2.2.2.2
    refine ⟨text, doc, h8, env, rfl, h1, ?_, ?_⟩
    · rw [← kids_spans ptr (fun _ => ()), h9]
      exact h4
    · rw [← restKids_spans ptr (fun _ => ()), ← filter_name_map (fun _ => ()) doc.nodes (fun s => s ∉ kids.map Kid.name), h9]
      exact h5

end

/-! ### Examples -/

namespace Demo

/-- The node, written out. -/
theorem drawing_printable : (mapNode (fun _ => ()) drawing).value.Printable ReadableType := by
  have hd : ∀ c : Char, c ∈ digitsOf .dec → (Value.mapSpan (fun _ => ()) (int [c])).Printable ReadableType :=
    fun c hc => ⟨nofun, .inl ⟨by simp, by simpa using hc⟩⟩
  have hs : (Value.mapSpan (fun _ => ()) (str ['t'])).Printable ReadableType := ⟨nofun, trivial⟩
  have hn : ∀ c args, (∀ v ∈ args, (Value.mapSpan (fun _ => ()) v).Printable ReadableType) →
      (mapNode (fun _ => ()) (nd c args)).value.Printable ReadableType := by
    intro c args ha
    rw [printable_iff, mapNode_typeName, mapNode_arguments, mapNode_properties, mapNode_childNodes]
    exact ⟨nofun, by simp only [List.forall_mem_map]; exact ha, nofun, .nil, nofun⟩
  rw [printable_iff, mapNode_typeName, mapNode_arguments, mapNode_properties, mapNode_childNodes]
  refine ⟨nofun, ?_, nofun, .nil, ?_⟩
  · simp only [List.forall_mem_map]
    show ∀ j ∈ [str ['t'], int ['1'], int ['2']], _
    simp only [List.forall_mem_cons]
    exact ⟨hs, hd _ (by decide), hd _ (by decide), nofun⟩
  · simp only [List.forall_mem_map]
    show ∀ j ∈ [nd 'q', nd 'm' [int ['3']], nd 'k' [int ['4']], nd 'm' [int ['5']], nd 'p' [int ['6']]], _
    simp only [List.forall_mem_cons]
    refine ⟨hn _ _ nofun, hn _ _ ?_, hn _ _ ?_, hn _ _ ?_, hn _ _ ?_, nofun⟩ <;>
      (simp only [List.forall_mem_cons]; exact ⟨hd _ (by decide), nofun⟩)

/-- The values of the struct of C72: with `z` as the name of the node, the one that was read. -/
example : (Decl.struct titled picture).Has 64 ['z'] false drawn := by
  have := decl_has 64 (Decl.struct titled picture) false (mapNode (fun _ => ()) drawing) drawn drawing_printable nofun
    ((c73_spans 64 (fun _ => ()) _ drawing drawn).2 drawn_read.1)
  rw [mapNode_nodeName] at this
  exact this

/-- `struct { child y: bool, children(name="m") m: Vec<point>, children s: Vec<shape> }`. -/
def scene : Content := .mk [] none [] none [.flag ['y'], .many (fld 'm') ['m'] (.type point)] (.some (fld 's') (.type shape))

/-- Some text is read as `y: true, m: [], s: [R, R]`. -/
example : ∃ text, parseDecode (T := fun _ => Unit) (Own.into 64 { extras := [] } (scene.struct 64)).root text =
    some (.ok (.record [(fld 'y', .bool true), (fld 'm', .list []), (fld 's', .list [.variant ['r'] (.record []), .variant ['r'] (.record [])])])) := by
  have hp : scene.Proper := by
    simp only [scene, Content.Proper, kidsProper, Kid.Proper, RestKids.Proper, Inner.Proper, point, shape, Decl.Proper, casesProper, Case.Proper]
    refine ⟨by decide, by decide, by decide, ⟨trivial, ?_, trivial⟩, ?_⟩
    · exact ⟨by decide, by decide, by decide, trivial, trivial⟩
    · exact ⟨⟨by decide, by decide, by decide, trivial, trivial⟩, ⟨by decide, by decide, by decide, trivial, trivial⟩, trivial, trivial⟩
  refine (c73_root 64 [] _ _ hp _).2 ⟨_, (by rw [List.append_nil]), ?_⟩
  rw [Content.Has.eq_def]
  dsimp only
  simp only [kidsHave, Kid.Has, RestKids.Has]
  refine ⟨rfl, ⟨0, by simp, trivial⟩, by simp, trivial, ⟨⟨_, List.mem_cons_self, true, rfl⟩, ⟨.list [], by simp [Kid.field], [], rfl, by simp⟩, trivial⟩,
    [.variant ['r'] (.record []), .variant ['r'] (.record [])], by simp, fun y hy => ⟨['r'], by decide, ?_⟩⟩
  have hy : y = .variant ['r'] (.record []) := by simpa using hy
  subst hy
  rw [Inner.Has, shape, Decl.Has, casesHave, if_neg (by decide), casesHave, if_neg (by decide), casesHave, if_pos (by rfl), Case.Has]

/-- A struct with `i: i64` has no value with 2⁶³ in it, so no text is read as one. -/
example : ¬ ∃ text, parseDecode (T := fun _ => Unit) (vecChildren (point.node 64)) text =
    some (.ok [.record [(fld 'i', .leaf (.int (2 ^ 63)))]]) := by
  have hp : point.Proper := by
    simp only [Decl.Proper, point, Content.Proper, kidsProper, RestKids.Proper]
    exact ⟨by decide, by decide, by decide, trivial, trivial⟩
  rw [c73_vec 64 point hp]
  intro h
  obtain ⟨name, h⟩ := h _ (List.mem_singleton.2 rfl)
  rw [point, Decl.Has] at h
  obtain ⟨a, t, env, he, ha, ⟨ty, -, -, ht⟩, h⟩ := h
  cases ha
  cases ht
  simp only [List.nil_append, List.append_nil, FVal.record.injEq] at he
  subst he
  rw [Content.Has.eq_def] at h
  obtain ⟨-, ⟨k, h, -⟩, -⟩ := h
  obtain ⟨x, hx, h⟩ := h 0 _ rfl
  simp only [List.mem_singleton, Prod.mk.injEq, true_and] at hx
  subst hx
  split at h
  · obtain ⟨n, hn, -, h⟩ := h
    simp only [FVal.leaf.injEq, Leaf.int.injEq] at hn
    subst hn
    exact absurd h (by decide)
  · exact absurd h (by simp [absent])

/-- `enum { Q(Option<shape>) }`: the value `Q(Some(Q(None)))` cannot be written.  It would be a node `q` with
something after its name, and one with nothing. -/
example : ∀ name, ¬ (Decl.enum [.nestedOpt ['q'] shape]).Has 64 name false (.variant ['q'] (.some (.variant ['q'] .none))) := by
  intro name h
  rw [Decl.Has, casesHave] at h
  split at h
  · next hn =>
    rw [Case.Has] at h
    rcases h with ⟨h, -⟩ | ⟨x, hx, h⟩
    · simp at h
    · simp only [FVal.variant.injEq, FVal.some.injEq, true_and] at hx
      subst hx
      subst hn
      rw [shape, Decl.Has, casesHave, if_neg (by decide), casesHave, if_pos (by rfl), Case.Has] at h
      rcases h with ⟨-, h⟩ | ⟨x, hx, -⟩
      · simp at h
      · simp at hx
  · rw [casesHave] at h
    exact h

end Demo

end Knuffel
