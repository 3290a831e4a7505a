import Verif.Theory.Shuffle
import Verif.Props.SchemaValues
import Verif.Props.Concat
import Verif.Theory.CborParsed
/-!
# C78: the order of children with different names does not matter

If every child of a declared type is asked for by its name, then bringing nodes with different names
into another order, at any depth, changes nothing in what is read.
-/

namespace Knuffel
open Schema Cst

section
variable {S : Type}

mutual
theorem shuffled_self : ∀ (n : Node S) (sp : S), Shuffled ⟨sp, n⟩ ⟨sp, n⟩
  | .mk _ _ _ _ none, _ => .mk rfl rfl rfl rfl rfl fun _ => .nil
  | .mk _ _ _ _ (some ⟨_, l⟩), _ => .mk rfl rfl rfl rfl rfl fun _ => shuffled_all l _
theorem shuffled_all : ∀ (l : List (SpannedNode S)) (p : SpannedNode S → Bool), Each2 Shuffled (l.filter p) (l.filter p)
  | [], _ => .nil
  | ⟨sp, n⟩ :: l, p => by
    rw [List.filter_cons]
    split
    · exact .cons (shuffled_self n sp) (shuffled_all l p)
    · exact shuffled_all l p
end

/-- Two lists without a name in common may be put together in either order. -/
theorem shuffled_swap {l l' : List (SpannedNode S)} (h : ∀ m ∈ l, ∀ m' ∈ l', m.value.nodeName.value ≠ m'.value.nodeName.value) :
    ShuffledNodes (l ++ l') (l' ++ l) := by
  intro name
  have : Named name (l ++ l') = Named name (l' ++ l) := by
    unfold Named
    rw [List.filter_append, List.filter_append]
    by_cases hn : ∃ m ∈ l, m.value.nodeName.value = name
    · obtain ⟨m, hm, rfl⟩ := hn
      have : (l'.filter fun k => k.value.nodeName.value = m.value.nodeName.value) = [] := by
        rw [List.filter_eq_nil_iff]
        intro k hk he
        simp only [decide_eq_true_eq] at he
        exact h m hm k hk he.symm
      rw [this]; simp
    · have : (l.filter fun k => k.value.nodeName.value = name) = [] := by
        rw [List.filter_eq_nil_iff]
        intro k hk he
        simp only [decide_eq_true_eq] at he
        exact hn ⟨k, hk, he⟩
      rw [this]; simp
  rw [← this]
  exact shuffled_all _ _

end

section
variable [Externals] {Ty : TypeId → Type} (ptr : Nat)

/-- **C78.** Two nodes that differ only in spans and in the order of children with different names (at any
depth) are decoded to the same value, or rejected both. -/
theorem c78_node {E S S' : Type} (d : Decl) (hd : d.Proper) (hb : d.ByName) (empty : E) (n : SpannedNode S) (n' : SpannedNode S')
    (h : Shuffled (noSpans n) (noSpans n')) :
    (∀ v, decodeNodeTop empty (d.node ptr) n = some (.ok v) ↔ decodeNodeTop empty (d.node ptr) n' = some (.ok v)) ∧
    ((∃ es, es ≠ [] ∧ decodeNodeTop empty (d.node ptr) n = some (.error es)) ↔
      ∃ es, es ≠ [] ∧ decodeNodeTop empty (d.node ptr) n' = some (.error es)) := by
  have hr : ∀ v, d.Reads ptr n v ↔ d.Reads ptr n' v := fun v => by
    rw [← c73_spans ptr (fun _ => ()) d n v, ← c73_spans ptr (fun _ => ()) d n' v]
    exact decl_shuffled ptr d hb _ _ v h
  refine ⟨fun v => ?_, ?_⟩
  · rw [c72_accepts ptr d hd, c72_accepts ptr d hd, hr]
  · rw [c72_rejects ptr d hd, c72_rejects ptr d hd]
    exact forall_congr' fun v => not_congr (hr v)

/-- **C78** for `parse` with a struct that has children (and fields without attributes) only: two texts
whose nodes differ only in spans and in the order of nodes with different names give the same
value, or are rejected both. -/
theorem c78_parse (extras : List (AttrAccess × FVal Leaf)) (kids : List Kid) (hp : (Content.mk [] none [] none kids .none).Proper)
    (hb : kidsByName kids) (text text' : Str) (doc doc' : Document (Sp Nat)) (h : parseAst text = some (.ok doc))
    (h' : parseAst text' = some (.ok doc')) (hs : ShuffledNodes (doc.nodes.map noSpans) (doc'.nodes.map noSpans)) :
    let decoder := (Own.into ptr { extras := extras } ((Content.mk [] none [] none kids .none).struct ptr)).root
    (∀ v, parseDecode (T := Ty) decoder text = some (.ok v) ↔ parseDecode (T := Ty) decoder text' = some (.ok v)) ∧
    ((∃ es, es ≠ [] ∧ parseDecode (T := Ty) decoder text = some (.error es)) ↔
      ∃ es, es ≠ [] ∧ parseDecode (T := Ty) decoder text' = some (.error es)) := by
  have hr : ∀ v, (Content.mk [] none [] none kids .none).ReadsRoot ptr extras doc.nodes v ↔
      (Content.mk [] none [] none kids .none).ReadsRoot ptr extras doc'.nodes v := by
    intro v
    have hk : ∀ env, kidsRead ptr kids doc.nodes env ↔ kidsRead ptr kids doc'.nodes env := fun env => by
      rw [← kids_spans ptr (fun _ => ()) kids doc.nodes, ← kids_spans ptr (fun _ => ()) kids doc'.nodes]
      exact kids_shuffled ptr kids hb _ _ env hs
    have ho : ∀ env, RestKids.none.Reads ptr (doc.nodes.filter fun m => m.value.nodeName.value ∉ kids.map Kid.name) env ↔
        RestKids.none.Reads ptr (doc'.nodes.filter fun m => m.value.nodeName.value ∉ kids.map Kid.name) env := fun env => by
      rw [← restKids_spans ptr (fun _ => ()), ← restKids_spans ptr (fun _ => ()) _ (List.filter _ doc'.nodes),
        ← filter_name_map (fun _ => ()) doc.nodes (fun s => s ∉ kids.map Kid.name),
        ← filter_name_map (fun _ => ()) doc'.nodes (fun s => s ∉ kids.map Kid.name), RestKids.Reads, RestKids.Reads]
      exact hs.others _
    unfold Content.ReadsRoot
    simp only [hk, ho]
  refine ⟨fun v => ?_, ?_⟩
  · rw [c72_parse ptr extras kids .none hp, c72_parse ptr extras kids .none hp, h, h']
    simp only [Option.some.injEq, Except.ok.injEq, exists_eq_left', hr]
  · rw [c72_parse_rejects ptr extras kids .none hp, c72_parse_rejects ptr extras kids .none hp, h, h']
    simp only [Option.some.injEq, Except.ok.injEq, forall_eq', hr]

omit [Externals] in
theorem joined_noSpans {n : Nat} {da dw d : Document (Sp Nat)} (h : Joined n da dw d) :
    d.nodes.map noSpans = da.nodes.map noSpans ++ dw.nodes.map noSpans := by
  obtain ⟨ns, h1, h2⟩ := h
  have h3 : ns.map noSpans = da.nodes.map noSpans := by
    have := congrArg (List.map fun p : Nat × Node (Sp Nat) => (⟨(), p.2.mapSpan fun _ => ()⟩ : SpannedNode Unit)) h2
    rw [List.map_map, List.map_map] at this
    exact this
  have h4 : (dw.moved n).nodes.map noSpans = dw.nodes.map noSpans := by
    have := congrArg Document.nodes (erase_mapSpan (fun s : Sp Nat => (⟨s.start + n, s.stop + n⟩ : Sp Nat)) dw)
    rwa [erased_nodes, erased_nodes] at this
  rw [h1, List.map_append, h3, h4]

/-- **C78.** Two texts that parse and have no node name in common may be put one after the other (with two
newlines between) in either order: the same value is read, or both are rejected. -/
theorem c78_swap (extras : List (AttrAccess × FVal Leaf)) (kids : List Kid) (hp : (Content.mk [] none [] none kids .none).Proper)
    (hb : kidsByName kids) (a b : Str) (da db : Document (Sp Nat)) (ha : parseAst a = some (.ok da)) (hta : NoTie a)
    (hb' : parseAst b = some (.ok db)) (htb : NoTie b)
    (hn : ∀ n ∈ da.nodes, ∀ m ∈ db.nodes, n.value.nodeName.value ≠ m.value.nodeName.value) :
    let decoder := (Own.into ptr { extras := extras } ((Content.mk [] none [] none kids .none).struct ptr)).root
    (∀ v, parseDecode (T := Ty) decoder (a ++ ['\n', '\n'] ++ b) = some (.ok v) ↔
      parseDecode (T := Ty) decoder (b ++ ['\n', '\n'] ++ a) = some (.ok v)) ∧
    ((∃ es, es ≠ [] ∧ parseDecode (T := Ty) decoder (a ++ ['\n', '\n'] ++ b) = some (.error es)) ↔
      ∃ es, es ≠ [] ∧ parseDecode (T := Ty) decoder (b ++ ['\n', '\n'] ++ a) = some (.error es)) := by
  obtain ⟨d1, h1, j1⟩ := (c64_two_newlines a b da ha hta).1 db hb'
  obtain ⟨d2, h2, j2⟩ := (c64_two_newlines b a db hb' htb).1 da ha
  refine c78_parse ptr extras kids hp hb _ _ d1 d2 h1 h2 ?_
  rw [joined_noSpans j1, joined_noSpans j2]
  refine shuffled_swap ?_
  simp only [List.forall_mem_map, mapNode_nodeName, Spanned.mapSpan]
  exact hn

end

/-! ### Examples -/

namespace Demo
open Knuffel Schema

/-- `struct { child y: bool, child k: Option<i64> with unwrap(argument), children(name="m") m: Vec<point> }`. -/
def tray : Content :=
  .mk [] none [] none
    [.flag ['y'], .opt ['k'] (.unwrap (fld 'k') (.mk [⟨fld 'k', false, none, .int .i64⟩] none [] none [] .none)),
      .many (fld 'm') ['m'] (.type point)] .none

theorem tray_proper : tray.Proper := by
  simp only [tray, Content.Proper, kidsProper, Kid.Proper, RestKids.Proper, Inner.Proper, point, Decl.Proper]
  refine ⟨by decide, by decide, by decide, ⟨trivial, ⟨by decide, by decide, by decide, by decide, trivial, trivial⟩, ?_, trivial⟩, trivial⟩
  exact ⟨by decide, by decide, by decide, trivial, trivial⟩

theorem tray_byName : tray.ByName := by
  simp [tray, Content.ByName, kidsByName, Kid.ByName, Inner.ByName, point, Decl.ByName]

/-- A node `z` with the given children. -/
def held (l : List (SpannedNode Nat)) : SpannedNode Nat := ⟨0, .mk none ⟨0, ['z']⟩ [] [] (some ⟨0, l⟩)⟩

/-- `z { m 3; y; m 5; k 4 }` and `z { k 4; m 3; m 5; y }` differ in the order of children with different names only. -/
theorem held_shuffled : Shuffled (noSpans (held [nd 'm' [int ['3']], nd 'y', nd 'm' [int ['5']], nd 'k' [int ['4']]]))
    (noSpans (held [nd 'k' [int ['4']], nd 'm' [int ['3']], nd 'm' [int ['5']], nd 'y'])) := by
  refine .mk rfl rfl rfl rfl rfl fun name => ?_
  have : (noSpans (held [nd 'm' [int ['3']], nd 'y', nd 'm' [int ['5']], nd 'k' [int ['4']]])).value.childNodes.filter (fun m => m.value.nodeName.value = name) =
      (noSpans (held [nd 'k' [int ['4']], nd 'm' [int ['3']], nd 'm' [int ['5']], nd 'y'])).value.childNodes.filter (fun m => m.value.nodeName.value = name) := by
    show List.filter _ [noSpans (nd 'm' [int ['3']]), noSpans (nd 'y'), noSpans (nd 'm' [int ['5']]), noSpans (nd 'k' [int ['4']])] =
      List.filter _ [noSpans (nd 'k' [int ['4']]), noSpans (nd 'm' [int ['3']]), noSpans (nd 'm' [int ['5']]), noSpans (nd 'y')]
    have hm : ∀ a, (noSpans (nd 'm' a)).value.nodeName.value = ['m'] := fun _ => rfl
    have hy : ∀ a, (noSpans (nd 'y' a)).value.nodeName.value = ['y'] := fun _ => rfl
    have hk : ∀ a, (noSpans (nd 'k' a)).value.nodeName.value = ['k'] := fun _ => rfl
    by_cases h1 : ['m'] = name
    · subst h1; rfl
    · by_cases h2 : ['y'] = name
      · subst h2; rfl
      · by_cases h3 : ['k'] = name
        · subst h3; rfl
        · simp [hm, hy, hk, h1, h2, h3]
  rw [this]
  exact shuffled_all _ _

/-- The second is read as the first is: `y: true, k: Some(4), m: [3, 5]`. -/
example : decodeNodeTop () ((Decl.struct {} tray).node 64) (held [nd 'k' [int ['4']], nd 'm' [int ['3']], nd 'm' [int ['5']], nd 'y']) =
    some (.ok (.record [(fld 'y', .bool true), (fld 'k', .some (.leaf (.int 4))),
      (fld 'm', .list [.record [(fld 'i', .leaf (.int 3))], .record [(fld 'i', .leaf (.int 5))]])])) := by
  have hp : (Decl.struct {} tray).Proper := by rw [Decl.Proper]; exact tray_proper
  have hb : (Decl.struct {} tray).ByName := by rw [Decl.ByName]; exact tray_byName
  exact ((c78_node 64 (Decl.struct {} tray) hp hb () _ _ held_shuffled).1 _).1 rfl

/-- `m 3⏎m 5` and `y⏎k 4` parse and have no name in common, so that they may be put together in either order. -/
example (v : FVal Leaf) : parseDecode (T := fun _ => Unit) (Own.into 64 { extras := [] } (tray.struct 64)).root ("m 3\nm 5".toList ++ ['\n', '\n'] ++ "y\nk 4".toList) = some (.ok v) ↔
    parseDecode (T := fun _ => Unit) (Own.into 64 { extras := [] } (tray.struct 64)).root ("y\nk 4".toList ++ ['\n', '\n'] ++ "m 3\nm 5".toList) = some (.ok v) := by
  obtain ⟨da, ha, ha'⟩ := of_parse (text := "m 3\nm 5".toList) (fun d => decide (d.nodes.length = 2 ∧ ∀ n ∈ d.nodes, n.value.nodeName.value = ['m'])) (by decide +kernel)
  obtain ⟨db, hb, hb'⟩ := of_parse (text := "y\nk 4".toList) (fun d => decide (d.nodes.length = 2 ∧ ∀ n ∈ d.nodes, n.value.nodeName.value ≠ ['m'])) (by decide +kernel)
  have ht : kidsByName _ ∧ _ := tray_byName
  refine (c78_swap (Ty := fun _ => Unit) 64 [] _ tray_proper ht.1 _ _ da db ha (by unfold NoTie; decide +kernel) hb (by unfold NoTie; decide +kernel) ?_).1 v
  intro n hn m hm
  rw [(of_decide_eq_true ha').2 n hn]
  exact ((of_decide_eq_true hb').2 m hm).symm

/-- `struct { children s: Vec<shape> }`. -/
def pile : Decl := .struct {} (.mk [] none [] none [] (.some (fld 's') (.type shape)))

end Demo

open Demo in
/-- **C78** needs that there is no field for all other children: such a field has the nodes in the order of
the text, whatever their names, so that `z { q; r }` and `z { r; q }` are read as different values. -/
theorem c78_rest_fails : ∃ v v', v ≠ v' ∧ pile.Proper ∧
    decodeNodeTop () (pile.node 64) (held [nd 'q', nd 'r']) = some (.ok v) ∧
    decodeNodeTop () (pile.node 64) (held [nd 'r', nd 'q']) = some (.ok v') ∧
    Shuffled (noSpans (held [nd 'q', nd 'r'])) (noSpans (held [nd 'r', nd 'q'])) := by
  refine ⟨.record [(fld 's', .list [.variant ['q'] .none, .variant ['r'] (.record [])])],
    .record [(fld 's', .list [.variant ['r'] (.record []), .variant ['q'] .none])], by simp, ?_, rfl, rfl, ?_⟩
  · simp only [pile, Content.Proper, kidsProper, RestKids.Proper, Inner.Proper, point, shape, Decl.Proper, casesProper, Case.Proper]
    exact ⟨by decide, by decide, by decide, trivial, ⟨by decide, by decide, by decide, trivial, trivial⟩, ⟨by decide, by decide, by decide, trivial, trivial⟩, trivial, trivial⟩
  · refine .mk rfl rfl rfl rfl rfl ?_
    have := shuffled_swap (l := [noSpans (nd 'q')]) (l' := [noSpans (nd 'r')]) (by
      intro m hm m' hm'
      rw [List.mem_singleton.1 hm, List.mem_singleton.1 hm']
      decide)
    exact this

end Knuffel
