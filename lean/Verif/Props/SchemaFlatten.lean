import Verif.Spec.SchemaFlatten
import Verif.Props.Flatten
import Verif.Props.Schema
import Verif.Props.Tame
/-!
# C81: a declared type with flattened parts reads what the type written out reads
-/

namespace Knuffel
open Schema

section
variable {E S : Type} [Externals]

/-- A run without a complaint. -/
theorem writtenOut_clean {ptr : Nat} {own : Own} {c : Content} {s : Struct E S Leaf} {R}
    (h : WrittenOut ptr own c s R) (n : SpannedNode S) (x : Ctx E S) :
    (∀ v x', s.node n x = .ok v x' → x'.errors = x.errors →
      ∃ w, R v w ∧ (Decl.struct own c).node ptr n x = .ok w x') ∧
    (∀ w x', (Decl.struct own c).node ptr n x = .ok w x' → x'.errors = x.errors →
      ∃ v, R v w ∧ s.node n x = .ok v x') := by
  induction h with
  | plain =>
    have e : (Decl.struct own c).node (E := E) (S := S) ptr n x = (own.into ptr (c.struct ptr)).node n x := by rw [Decl.node]
    exact ⟨fun v x' h _ => ⟨v, rfl, e.trans h⟩, fun w x' h _ => ⟨w, rfl, e.symm.trans h⟩⟩
  | @property s s' t fp env0 R hi hp ht h ih =>
    have h := c44_property hi hp ht n x
    refine ⟨fun v x' hv he => ?_, fun w x' hw he => ?_⟩
    · rw [hv] at h
      cases hv' : s'.node n x with
      | ok u x2 =>
        rw [hv'] at h; obtain ⟨hr, rfl⟩ := h
        obtain ⟨w, h1, h2⟩ := ih.1 u _ hv' he
        exact ⟨w, ⟨u, hr, h1⟩, h2⟩
      | err _ _ => rw [hv'] at h; exact h.elim
      | panic => rw [hv'] at h; exact h.elim
    · obtain ⟨u, h1, h2⟩ := ih.2 w x' hw he
      rw [h2] at h
      cases hv' : s.node n x with
      | ok v x2 => rw [hv'] at h; obtain ⟨hr, rfl⟩ := h; exact ⟨v, ⟨u, hr, h1⟩, rfl⟩
      | err _ _ => rw [hv'] at h; exact h.elim
      | panic => rw [hv'] at h; exact h.elim
  | @child s s' t fc env0 R hi hp hs ht hf h ih =>
    obtain ⟨g1, g2⟩ := c44_child_clean hi hs ht hp hf n x
    refine ⟨fun v x' hv he => ?_, fun w x' hw he => ?_⟩
    · obtain ⟨u, h1, h2⟩ := g1 v x' hv he
      obtain ⟨w, h3, h4⟩ := ih.1 u x' h1 he
      exact ⟨w, ⟨u, h2, h3⟩, h4⟩
    · obtain ⟨u, h1, h2⟩ := ih.2 w x' hw he
      obtain ⟨v, h3, h4⟩ := g2 u x' h2 he
      exact ⟨v, ⟨u, h4, h1⟩, h3⟩

theorem writtenOut_root {ptr : Nat} {own : Own} {c : Content} {s : Struct E S Leaf} {R}
    (h : WrittenOut ptr own c s R) (hs : s.properties = []) (nodes : List (SpannedNode S)) (x : Ctx E S) :
    (∀ v x', s.root nodes x = .ok v x' → x'.errors = x.errors →
      ∃ w, R v w ∧ (own.into ptr (c.struct ptr)).root nodes x = .ok w x') ∧
    (∀ w x', (own.into ptr (c.struct ptr)).root nodes x = .ok w x' → x'.errors = x.errors →
      ∃ v, R v w ∧ s.root nodes x = .ok v x') := by
  induction h with
  | plain => exact ⟨fun v x' h _ => ⟨v, rfl, h⟩, fun w x' h _ => ⟨w, rfl, h⟩⟩
  | property hi =>
    obtain ⟨pre, post, h1, -⟩ := hi.split
    rw [hs] at h1
    simp at h1
  | @child s s' t fc env0 R hi hp hk ht hf h ih =>
    have hs' : s'.properties = [] := by
      obtain ⟨pre, post, -, rfl⟩ := hi.split
      exact hs
    obtain ⟨-, g1, g2⟩ := c44_root hi hk ht hp hf nodes x
    refine ⟨fun v x' hv he => ?_, fun w x' hw he => ?_⟩
    · obtain ⟨u, h1, h2⟩ := g1 v x' hv he
      obtain ⟨w, h3, h4⟩ := (ih hs').1 u x' h1 he
      exact ⟨w, ⟨u, h2, h3⟩, h4⟩
    · obtain ⟨u, h1, h2⟩ := (ih hs').2 w x' hw he
      obtain ⟨v, h3, h4⟩ := g2 u x' h2 he
      exact ⟨v, ⟨u, h4, h1⟩, h3⟩

/-- **C81.** A struct with flattened parts takes exactly the nodes that are ways of writing a value of
the struct written out, and what comes out is that value with its fields put together again. -/
theorem c81_accepts {ptr : Nat} {own : Own} {c : Content} (hc : c.Proper) {s : Struct E S Leaf} {R}
    (h : WrittenOut ptr own c s R) (empty : E) (n : SpannedNode S) :
    (∀ v, decodeNodeTop empty s.node n = some (.ok v) → ∃ w, R v w ∧ (Decl.struct own c).Reads ptr n w) ∧
    (∀ w, (Decl.struct own c).Reads ptr n w → ∃ v, R v w ∧ decodeNodeTop empty s.node n = some (.ok v)) := by
  have hd : (Decl.struct own c).Proper := by rw [Decl.Proper]; exact hc
  obtain ⟨h1, h2⟩ := writtenOut_clean h n ⟨[], empty⟩
  refine ⟨fun v hv => ?_, fun w hw => ?_⟩
  · obtain ⟨x', g1, g2⟩ := ((c34_node empty s.node n).1 v).1 hv
    obtain ⟨w, g3, g4⟩ := h1 v x' g1 g2
    exact ⟨w, g3, (c72_accepts ptr _ hd empty n w).1 (((c34_node empty _ n).1 w).2 ⟨x', g4, g2⟩)⟩
  · obtain ⟨x', g1, g2⟩ := ((c34_node empty _ n).1 w).1 ((c72_accepts ptr _ hd empty n w).2 hw)
    obtain ⟨v, g3, g4⟩ := h2 w x' g1 g2
    exact ⟨v, g3, ((c34_node empty s.node n).1 v).2 ⟨x', g4, g2⟩⟩

/-- **C81.** All other nodes are answered with errors, if what the types of the fields have does not panic (C82). -/
theorem c81_rejects {ptr : Nat} {own : Own} {c : Content} (hc : c.Proper) {s : Struct E S Leaf} {R}
    (h : WrittenOut ptr own c s R) (ht : s.Tame) (empty : E) (n : SpannedNode S) :
    (∃ es, es ≠ [] ∧ decodeNodeTop empty s.node n = some (.error es)) ↔ ∀ w, ¬ (Decl.struct own c).Reads ptr n w := by
  obtain ⟨h1, h2⟩ := c81_accepts hc h empty n
  constructor
  · rintro ⟨es, -, he⟩ w hw
    obtain ⟨v, -, hv⟩ := h2 w hw
    rw [he] at hv
    cases hv
  · intro hw
    cases hr : decodeNodeTop empty s.node n with
    | none =>
      have h0 := (ht.node n [] empty).1
      unfold decodeNodeTop at hr
      cases hd : s.node n ⟨[], empty⟩ with
      | panic => rw [hd] at h0; exact h0.elim
      | ok a c => rw [hd] at hr; simp only [finish] at hr; split at hr <;> cases hr
      | err e c => rw [hd] at hr; simp only [finish] at hr; cases hr
    | some r =>
      cases r with
      | ok v =>
        obtain ⟨w, -, hv⟩ := h1 v hr
        exact absurd hv (hw w)
      | error es =>
        refine ⟨es, ?_, rfl⟩
        rintro rfl
        unfold decodeNodeTop at hr
        cases hd : s.node n ⟨[], empty⟩ with
        | panic => rw [hd] at hr; cases hr
        | ok a c =>
          rw [hd] at hr
          simp only [finish] at hr
          split at hr
          · rename_i he
            simp only [Option.some.injEq, Except.error.injEq, Ctx.intoErrors] at hr
            rw [Ctx.hasErrors, hr] at he
            cases he
          · cases hr
        | err e c => rw [hd] at hr; simp [finish, Ctx.emitError, Ctx.intoErrors] at hr

/-- **C81** for `parse`: a text gives a value of a struct of children, some of them in flattened parts,
exactly if it is a document whose nodes are a way of writing the value written out. -/
theorem c81_parse {Ty : TypeId → Type} {ptr : Nat} {extras : List (AttrAccess × FVal Leaf)} {kids : List Kid} {restKids : RestKids}
    (hc : (Content.mk [] none [] none kids restKids).Proper) {s : Struct (Extensions Ty) (Sp Nat) Leaf} {R}
    (h : WrittenOut ptr { extras := extras } (Content.mk [] none [] none kids restKids) s R) (hs : s.properties = []) (text : Str) :
    (∀ v, parseDecode s.root text = some (.ok v) → ∃ w doc, R v w ∧ parseAst text = some (.ok doc) ∧
      (Content.mk [] none [] none kids restKids).ReadsRoot ptr extras doc.nodes w) ∧
    (∀ w doc, parseAst text = some (.ok doc) → (Content.mk [] none [] none kids restKids).ReadsRoot ptr extras doc.nodes w →
      ∃ v, R v w ∧ parseDecode s.root text = some (.ok v)) := by
  refine ⟨fun v hv => ?_, fun w doc hdoc hw => ?_⟩
  · obtain ⟨doc, x', h1, h2, h3⟩ := (c34_parse s.root text v).1 hv
    obtain ⟨w, g1, g2⟩ := (writtenOut_root h hs doc.nodes ⟨[], []⟩).1 v x' h2 h3
    obtain ⟨doc', g3, g4⟩ := (c72_parse ptr extras kids restKids hc text w).1 ((c34_parse _ text w).2 ⟨doc, x', h1, g2, h3⟩)
    exact ⟨w, doc', g1, g3, g4⟩
  · obtain ⟨doc', x', h1, h2, h3⟩ := (c34_parse _ text w).1 ((c72_parse ptr extras kids restKids hc text w).2 ⟨doc, hdoc, hw⟩)
    obtain ⟨v, g1, g2⟩ := (writtenOut_root h hs doc'.nodes ⟨[], []⟩).2 w x' h2 h3
    exact ⟨v, g1, (c34_parse s.root text v).2 ⟨doc', x', h1, g2, h3⟩⟩

/-- **C81** for `parse`: all other texts are answered with errors. -/
theorem c81_parse_rejects {Ty : TypeId → Type} {ptr : Nat} {extras : List (AttrAccess × FVal Leaf)} {kids : List Kid} {restKids : RestKids}
    (hc : (Content.mk [] none [] none kids restKids).Proper) {s : Struct (Extensions Ty) (Sp Nat) Leaf} {R}
    (h : WrittenOut ptr { extras := extras } (Content.mk [] none [] none kids restKids) s R) (hs : s.properties = []) (ht : s.Tame)
    (text : Str) :
    (∃ es, es ≠ [] ∧ parseDecode s.root text = some (.error es)) ↔
      ∀ doc, parseAst text = some (.ok doc) → ∀ w, ¬ (Content.mk [] none [] none kids restKids).ReadsRoot ptr extras doc.nodes w := by
  obtain ⟨h1, h2⟩ := c81_parse hc h hs text
  constructor
  · rintro ⟨es, -, he⟩ doc hdoc w hw
    obtain ⟨v, -, hv⟩ := h2 w doc hdoc hw
    rw [he] at hv
    cases hv
  · intro hw
    obtain ⟨r, hr⟩ := (c82_parse_text ht.root id text).2
    cases r with
    | ok v =>
      obtain ⟨w, doc, -, hd, hv⟩ := h1 v hr
      exact absurd hv (hw doc hd w)
    | error es => exact ⟨es, errors_ne_nil hr, hr⟩

/-! ### An example -/

theorem scal_impls_keeps (ptr : Nat) (t : Scal) (o : Bool) : (t.impls (E := E) (S := S) ptr o).Keeps where
  scalar v := by
    by_cases h : t.mode = .normal
    · have := (value_settles (E := E) ptr t o v).keeps
      rw [h] at this
      exact this
    · cases t <;> first | exact absurd rfl h | skip
      all_goals
        cases o
        · exact Keeps.pure _
        · refine Keeps.bind (Keeps.bind (Keeps.pure _) fun _ => ?_) fun _ => Keeps.pure _
          dsimp only
          split
          · exact Keeps.pure _
          · exact Keeps.bind (Keeps.pure _) fun _ => Keeps.pure _
  node _ := Keeps.pure _
  insertChild _ _ := Keeps.pure _
  insertProperty _ _ _ := Keeps.pure _
  span _ := fun _ => List.prefix_rfl

theorem nodeImpls_keeps (ptr : Nat) {d : NodeDecoder E S (FVal Leaf)} (h : ∀ n, Keeps (d n)) : (nodeImpls ptr d).Keeps where
  scalar := (scal_impls_keeps ptr .text false).scalar
  node := h
  insertChild _ _ := Keeps.pure _
  insertProperty _ _ _ := Keeps.pure _
  span _ := fun _ => List.prefix_rfl

theorem mem_kidsChildren (ptr : Nat) (ks : List Kid) : kidsChildren (E := E) (S := S) ptr ks = ks.map (Kid.child ptr) := by
  induction ks with
  | nil => rfl
  | cons k ks ih => simp [kidsChildren, ih]

/-- Nothing that a declared type uses takes back errors. -/
theorem content_keeps (ptr : Nat) (own : Own) (c : Content) (hc : c.Proper) : (own.into ptr (c.struct (E := E) (S := S) ptr)).Keeps := by
  obtain ⟨args, rest, props, restProps, kids, restKids⟩ := c
  rw [Content.Proper] at hc
  obtain ⟨-, -, -, hk, hr⟩ := hc
  have flagK : ∀ n : SpannedNode S, Keeps (E := E) (pure .none : D E S (FVal Leaf)) := fun n => Keeps.pure _
  simp only [Content.struct]
  refine ⟨?_, ?_, ?_, ?_, ?_, ?_, ?_, ?_, ?_⟩
  · simp [Own.into]
  · simp only [Own.into, List.mem_map]
    rintro f ⟨x, -, rfl⟩
    exact scal_impls_keeps _ _ _
  · simp only [Own.into, List.mem_map]
    rintro f ⟨x, -, rfl⟩
    exact scal_impls_keeps _ _ _
  · simp only [Own.into, List.mem_map]
    rintro f ⟨x, -, rfl⟩
    exact scal_impls_keeps _ _ _
  · simp only [Own.into, Option.mem_def, Option.map_eq_some_iff]
    rintro f ⟨x, -, rfl⟩
    exact scal_impls_keeps _ _ _
  · simp only [Own.into, List.mem_map]
    rintro f ⟨x, -, rfl⟩
    exact scal_impls_keeps _ _ _
  · simp only [Own.into, Option.mem_def, Option.map_eq_some_iff]
    rintro f ⟨x, -, rfl⟩
    exact scal_impls_keeps _ _ _
  · simp only [Own.into, mem_kidsChildren, List.mem_map]
    rintro f ⟨k, hm, rfl⟩
    have hg := kids_good E S ptr kids hk k hm
    cases k with
    | flag f => exact ⟨nodeImpls_keeps ptr flagK, flagK⟩
    | one f i => exact ⟨nodeImpls_keeps ptr fun n => (hg n).keeps, fun n => (hg n).keeps⟩
    | opt f i => exact ⟨nodeImpls_keeps ptr fun n => (hg n).keeps, fun n => (hg n).keeps⟩
    | orElse f d i => exact ⟨nodeImpls_keeps ptr fun n => (hg n).keeps, fun n => (hg n).keeps⟩
    | many f nm i => exact ⟨nodeImpls_keeps ptr fun n => (hg n).keeps, fun n => (hg n).keeps⟩
  · have hg := rest_good E S ptr restKids hr
    cases restKids with
    | none => simp [Own.into, RestKids.var]
    | some f i =>
      simp only [Own.into, RestKids.var, Option.mem_def, Option.some.injEq]
      rintro v rfl
      exact fun n => (hg n).keeps

end

namespace FlatDemo
open Demo
variable {E S : Type}

/-- `struct { property u: Option<bool>, child k: Option<point> }`, to be flattened. -/
def part : Content := .mk [] none [⟨fld 'u', ['u'], true, none, .bool⟩] none [.opt ['k'] (.type point)] .none

/-- `struct { argument a: String, u, child y: bool, k }`, written out. -/
def plain : Content :=
  .mk [⟨fld 'a', false, none, .text⟩] none [⟨fld 'u', ['u'], true, none, .bool⟩] none [.flag ['y'], .opt ['k'] (.type point)] .none

/-- The `Default` of `part`. -/
def unset : Env Leaf := [(fld 'u', .none), (fld 'k', .none)]

/-- The implementations for a field of the type `part`. -/
def partImpls : Impls E S Leaf := { Scal.impls 64 .text false with part := (part.struct 64).part, default := .record unset }

/-- `#[knuffel(flatten(property))] p: part`. -/
def fp : Prop' E S Leaf := ⟨fld 'p', [], false, .normal, true, none, partImpls⟩
/-- `#[knuffel(flatten(child))] c: part`. -/
def fc : Child E S Leaf := ⟨fld 'c', [], false, .flatten, none, fun _ => pure .none, partImpls⟩

/-- `struct { argument a: String, flatten(property) p: part, child y: bool, flatten(child) c: part }`. -/
def flat : Struct E S Leaf :=
  { (plain.struct 64 : Struct E S Leaf) with
    properties := [fp], children := [(Kid.flag ['y']).child 64, fc] }

/-- The same with the field `p` written out. -/
def half : Struct E S Leaf :=
  { (plain.struct 64 : Struct E S Leaf) with children := [(Kid.flag ['y']).child 64, fc] }

theorem point_proper : point.Proper := by
  simp only [point, Decl.Proper, Content.Proper, kidsProper, RestKids.Proper]
  exact ⟨by decide, by decide, by decide, trivial, trivial⟩
theorem part_proper : part.Proper := by
  simp only [part, Content.Proper, kidsProper, Kid.Proper, RestKids.Proper, Inner.Proper]
  exact ⟨by decide, by decide, by decide, ⟨point_proper, trivial⟩, trivial⟩
theorem plain_proper : plain.Proper := by
  simp only [plain, Content.Proper, kidsProper, Kid.Proper, RestKids.Proper, Inner.Proper]
  exact ⟨by decide, by decide, by decide, ⟨trivial, point_proper, trivial⟩, trivial⟩

theorem part_keeps : (part.struct 64 : Struct E S Leaf).Keeps := content_keeps (E := E) (S := S) 64 {} part part_proper

theorem partImpls_keeps : (partImpls (E := E) (S := S)).Keeps where
  scalar := (scal_impls_keeps 64 .text false).scalar
  node := (scal_impls_keeps 64 .text false).node
  insertChild x n := Keeps.insertChildArms n _ x part_keeps.children
  insertProperty x n v := Keeps.insertPropertyArms n v _ x part_keeps.properties
  span := (scal_impls_keeps 64 .text false).span

theorem half_keeps : (half (E := E) (S := S)).Keeps := by
  have h := content_keeps (E := E) (S := S) 64 {} plain plain_proper
  refine ⟨h.1, h.2, h.3, h.4, h.5, h.6, h.7, ?_, h.9⟩
  intro f hf
  simp only [half, List.mem_cons, List.not_mem_nil, or_false] at hf
  rcases hf with rfl | rfl
  · exact h.8 _ (by simp [Own.into, plain, Content.struct, kidsChildren])
  · exact ⟨partImpls_keeps, fun _ => Keeps.pure _⟩

theorem partImpls_tame : (partImpls (E := E) (S := S)).Tame where
  scalar := (tame_scal 64 .text false).scalar
  node := (tame_scal 64 .text false).node
  insertChild x n := Tame.insertChildArms n _ x (tame_content E S 64 part).children
  insertProperty x n v := Tame.insertPropertyArms n v _ x (tame_content E S 64 part).properties
  span := (tame_scal 64 .text false).span

theorem flat_tame : (flat (E := E) (S := S)).Tame := by
  have h := tame_content E S 64 plain
  refine { h with properties := ?_, children := ?_ }
  · intro f hf
    cases List.mem_singleton.1 hf
    exact partImpls_tame
  · intro f hf
    simp only [flat, List.mem_cons, List.not_mem_nil, or_false] at hf
    rcases hf with rfl | rfl
    · exact tame_kid E S 64 _
    · exact ⟨partImpls_tame, fun _ => Tame.pure _⟩

/-- The struct, written out, is the declaration `plain`: first `p`, then `c`. -/
theorem flat_writtenOut : ∃ R, WrittenOut 64 {} plain (flat (E := E) (S := S)) R := by
  have h1 : WrittenOut 64 {} plain (half (E := E) (S := S)) _ := .child (t := part.struct 64) (fc := fc) (env0 := unset)
    (s' := Own.into 64 {} (plain.struct 64))
    ⟨⟨[(Kid.flag ['y']).child 64], [], rfl, by simp [half, plain, part, Own.into, Content.struct, kidsChildren]⟩, rfl, rfl, by
      intro ch hch
      simp only [part, Content.struct, kidsChildren, List.mem_singleton] at hch
      subst hch
      rfl, by simp [part, Content.struct, kidsChildren]⟩
    rfl half_keeps part_keeps (by
      intro ch hch
      simp only [part, Content.struct, kidsChildren, List.mem_singleton] at hch
      subst hch
      exact ⟨rfl, rfl⟩) .plain
  exact ⟨_, .property (t := part.struct 64) (fp := fp) (env0 := unset) (s' := half)
    ⟨⟨[], [], rfl, by simp [half, flat, plain, part, Content.struct]⟩, rfl, rfl, by
      intro p hp
      simp only [part, Content.struct, List.map_cons, List.map_nil, List.mem_singleton] at hp
      subst hp
      rfl, by simp [part, Content.struct]⟩ rfl rfl h1⟩

/-- `z "t" u=true { k 4; y }`. -/
def sampleNode : SpannedNode Nat :=
  ⟨0, .mk none ⟨0, ['z']⟩ [str ['t']] [(⟨0, ['u']⟩, ⟨none, ⟨0, .bool true⟩⟩)] (some ⟨0, [nd 'k' [int ['4']], nd 'y']⟩)⟩

theorem flat_reads : decodeNodeTop () flat.node sampleNode =
    some (.ok (.record [(fld 'a', .leaf (.text ['t'])),
      (fld 'p', .record [(fld 'u', .some (.bool true)), (fld 'k', .none)]), (fld 'y', .bool true),
      (fld 'c', .record [(fld 'u', .none), (fld 'k', .some (.record [(fld 'i', .leaf (.int 4))]))])])) := rfl

/-- It is accepted because it is a way of writing a value of `plain`. -/
example : ∃ w, (Decl.struct {} plain).Reads 64 sampleNode w := by
  obtain ⟨R, h⟩ := flat_writtenOut (E := Unit) (S := Nat)
  obtain ⟨w, -, hw⟩ := (c81_accepts plain_proper h () sampleNode).1 _ flat_reads
  exact ⟨w, hw⟩

/-- Without the argument it is no way of writing a value, as `flat` answers with errors. -/
example (w) : ¬ (Decl.struct {} plain).Reads 64 (nd 'z' : SpannedNode Nat) w := by
  obtain ⟨R, h⟩ := flat_writtenOut (E := Unit) (S := Nat)
  exact (c81_rejects plain_proper h flat_tame () (nd 'z')).1 ⟨_, by simp [Ctx.emitError, Ctx.intoErrors], rfl⟩ w

/-- `struct { child y: bool, k }` for documents, written out, and with `k` in a flattened field. -/
def plainRoot : Content := .mk [] none [] none [.flag ['y'], .opt ['k'] (.type point)] .none
/-- The second. -/
def flatRoot : Struct E S Leaf :=
  { (plainRoot.struct 64 : Struct E S Leaf) with children := [(Kid.flag ['y']).child 64, fc] }

theorem plainRoot_proper : plainRoot.Proper := by
  simp only [plainRoot, Content.Proper, kidsProper, Kid.Proper, RestKids.Proper, Inner.Proper]
  exact ⟨by decide, by decide, by decide, ⟨trivial, point_proper, trivial⟩, trivial⟩

theorem flatRoot_keeps : (flatRoot (E := E) (S := S)).Keeps := by
  have h := content_keeps (E := E) (S := S) 64 {} plainRoot plainRoot_proper
  refine ⟨h.1, h.2, h.3, h.4, h.5, h.6, h.7, ?_, h.9⟩
  intro f hf
  simp only [flatRoot, List.mem_cons, List.not_mem_nil, or_false] at hf
  rcases hf with rfl | rfl
  · exact h.8 _ (by simp [Own.into, plainRoot, Content.struct, kidsChildren])
  · exact ⟨partImpls_keeps, fun _ => Keeps.pure _⟩

theorem flatRoot_writtenOut : ∃ R, WrittenOut 64 {} plainRoot (flatRoot (E := E) (S := S)) R :=
  ⟨_, .child (t := part.struct 64) (fc := fc) (env0 := unset) (s' := Own.into 64 {} (plainRoot.struct 64))
    ⟨⟨[(Kid.flag ['y']).child 64], [], rfl, by simp [flatRoot, plainRoot, part, Own.into, Content.struct, kidsChildren]⟩, rfl, rfl, by
      intro ch hch
      simp only [part, Content.struct, kidsChildren, List.mem_singleton] at hch
      subst hch
      rfl, by simp [part, Content.struct, kidsChildren]⟩
    rfl flatRoot_keeps part_keeps (by
      intro ch hch
      simp only [part, Content.struct, kidsChildren, List.mem_singleton] at hch
      subst hch
      exact ⟨rfl, rfl⟩) .plain⟩

/-- The text `k 4;y` is accepted because its nodes are a way of writing a value of `plainRoot`. -/
example : ∃ w doc, parseAst "k 4;y".toList = some (.ok doc) ∧ plainRoot.ReadsRoot 64 [] doc.nodes w := by
  obtain ⟨R, h⟩ := flatRoot_writtenOut (E := Extensions fun _ => Unit) (S := Sp Nat)
  have hv : ∃ v, parseDecode (T := fun _ => Unit) flatRoot.root "k 4;y".toList = some (.ok v) := ⟨_, rfl⟩
  obtain ⟨v, hv⟩ := hv
  obtain ⟨w, doc, -, h1, h2⟩ := (c81_parse plainRoot_proper h rfl _).1 v hv
  exact ⟨w, doc, h1, h2⟩

theorem flatRoot_tame : (flatRoot (E := E) (S := S)).Tame := by
  have h := tame_content E S 64 plainRoot
  refine { h with children := ?_ }
  intro f hf
  simp only [flatRoot, List.mem_cons, List.not_mem_nil, or_false] at hf
  rcases hf with rfl | rfl
  · exact tame_kid E S 64 _
  · exact ⟨partImpls_tame, fun _ => Tame.pure _⟩

/-- The text `k 4;y 1` is answered with errors because its nodes are no way of writing a value. -/
example : ∀ doc, parseAst "k 4;y 1".toList = some (.ok doc) → ∀ w, ¬ plainRoot.ReadsRoot 64 [] doc.nodes w := by
  obtain ⟨R, h⟩ := flatRoot_writtenOut (E := Extensions fun _ => Unit) (S := Sp Nat)
  have hv : (match parseDecode (T := fun _ => Unit) flatRoot.root "k 4;y 1".toList with | some (.error _) => true | _ => false) = true := by
    decide +kernel
  obtain ⟨es, hv⟩ : ∃ es, parseDecode (T := fun _ => Unit) flatRoot.root "k 4;y 1".toList = some (.error es) := by
    generalize parseDecode (T := fun _ => Unit) flatRoot.root "k 4;y 1".toList = r at hv
    rcases r with _ | _ | _ <;> simp at hv ⊢
  exact (c81_parse_rejects plainRoot_proper h rfl flatRoot_tame _).1 ⟨es, errors_ne_nil hv, hv⟩

end FlatDemo

end Knuffel
