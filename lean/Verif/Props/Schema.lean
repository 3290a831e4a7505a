import Verif.Theory.Schema
import Verif.Props.Decode
import Verif.Props.DeriveErrors
import Verif.Theory.DeriveDemo
/-!
# C72: a declared type reads exactly the nodes that are ways of writing its values

`Spec/Schema.lean` has a small language of type declarations, and says for each which nodes are a
way of writing a value, and which value (`Decl.Reads`).  The decoders that the derives generate for
such declarations (`Decl.node`), which read the parts of a node one after the other, collect
errors and go on after some of them, agree with it: to any depth of nested types.
-/

namespace Knuffel
open Schema

section
variable {E S : Type} [Externals]

/-! ### One node -/

/-- **C72.** A value comes out without a complaint exactly if the node is a way of writing it, and
then the context is as before. -/
theorem c72_node (ptr : Nat) (d : Decl) (hd : d.Proper) (n : SpannedNode S) (c : Ctx E S) (v : FVal Leaf) :
    (∃ c', d.node ptr n c = .ok v c' ∧ c'.errors = c.errors) ↔ d.Reads ptr n v ∧ d.node ptr n c = .ok v c := by
  have h := decl_settles E S ptr d hd n
  constructor
  · rintro ⟨c', h1, h2⟩
    obtain ⟨rfl, h3⟩ := h.ok _ _ _ h1 h2
    exact ⟨h3, h1⟩
  · rintro ⟨-, h1⟩
    exact ⟨c, h1, rfl⟩

/-- **C72** for `decode::node`: what is accepted. -/
theorem c72_accepts (ptr : Nat) (d : Decl) (hd : d.Proper) (empty : E) (n : SpannedNode S) (v : FVal Leaf) :
    decodeNodeTop empty (d.node ptr) n = some (.ok v) ↔ d.Reads ptr n v :=
  (decl_settles E S ptr d hd n).finish empty v

/-- **C72** for `decode::node`: everything else is answered with errors, at least one. -/
theorem c72_rejects (ptr : Nat) (d : Decl) (hd : d.Proper) (empty : E) (n : SpannedNode S) :
    (∃ es, es ≠ [] ∧ decodeNodeTop empty (d.node ptr) n = some (.error es)) ↔ ∀ v, ¬ d.Reads ptr n v :=
  (decl_settles E S ptr d hd n).finish_error empty

omit [Externals] in
/-- **C72.** A node is a way of writing at most one value. -/
theorem c72_unique [Externals] (ptr : Nat) (d : Decl) (hd : d.Proper) (n : SpannedNode S) (v w : FVal Leaf)
    (hv : d.Reads ptr n v) (hw : d.Reads ptr n w) : v = w := by
  have h := decl_settles Unit S ptr d hd n
  have h1 := h.back v hv ⟨[], ()⟩
  rw [h.back w hw ⟨[], ()⟩] at h1
  simpa using h1.symm

/-! ### Texts -/

section
variable {Ty : TypeId → Type} (ptr : Nat)

omit [Externals] in
theorem settles_text {α : Type} {dec : ChildrenDecoder (Extensions Ty) (Sp Nat) α} {R : List (SpannedNode (Sp Nat)) → α → Prop}
    (h : ∀ nodes, Settles (dec nodes) (R nodes)) (text : Str) (v : α) :
    parseDecode dec text = some (.ok v) ↔ ∃ doc, parseAst text = some (.ok doc) ∧ R doc.nodes v := by
  rw [c34_parse]
  constructor
  · rintro ⟨doc, c, h1, h2, h3⟩
    exact ⟨doc, h1, ((h doc.nodes).ok _ _ _ h2 h3).2⟩
  · rintro ⟨doc, h1, h2⟩
    exact ⟨doc, _, h1, (h doc.nodes).back v h2 _, rfl⟩

omit [Externals] in
theorem settles_text_error {α : Type} {dec : ChildrenDecoder (Extensions Ty) (Sp Nat) α} {R : List (SpannedNode (Sp Nat)) → α → Prop}
    (h : ∀ nodes, Settles (dec nodes) (R nodes)) (text : Str) :
    (∃ es, es ≠ [] ∧ parseDecode dec text = some (.error es)) ↔
      ∀ doc, parseAst text = some (.ok doc) → ∀ v, ¬ R doc.nodes v := by
  constructor
  · rintro ⟨es, -, h1⟩ doc hdoc v hv
    have := (settles_text h text v).2 ⟨doc, hdoc, hv⟩
    rw [h1] at this
    simp at this
  · intro hn
    obtain ⟨r, hr⟩ := c01_parse_total text
    cases r with
    | error pes =>
      refine ⟨pes.map .parse, ?_, ?_⟩
      · have := ((c02_err_carries_reported text pes).1 hr).2
        simpa using this
      · exact (c34_error_iff id dec text _).2 (.inl ⟨pes, hr, rfl⟩)
    | ok doc =>
      refine (c30_parse dec text doc hr ?_).2 (h doc.nodes).live
      rintro c ⟨v, c', h1, h2⟩
      exact hn doc hr v ((h doc.nodes).ok _ _ _ h1 h2).2

/-- **C72** for `parse` with a struct that has children only: a text gives a value exactly if it is a
document whose nodes are a way of writing it. -/
theorem c72_parse (extras : List (AttrAccess × FVal Leaf)) (kids : List Kid) (restKids : RestKids) (hp : (Content.mk [] none [] none kids restKids).Proper)
    (text : Str) (v : FVal Leaf) :
    parseDecode (T := Ty) (Own.into ptr { extras := extras } ((Content.mk [] none [] none kids restKids).struct ptr)).root text = some (.ok v) ↔
      ∃ doc, parseAst text = some (.ok doc) ∧ (Content.mk [] none [] none kids restKids).ReadsRoot ptr extras doc.nodes v :=
  settles_text (root_settles _ _ ptr extras kids restKids hp) text v

/-- **C72.** All other texts are answered with errors. -/
theorem c72_parse_rejects (extras : List (AttrAccess × FVal Leaf)) (kids : List Kid) (restKids : RestKids) (hp : (Content.mk [] none [] none kids restKids).Proper)
    (text : Str) :
    (∃ es, es ≠ [] ∧ parseDecode (T := Ty) (Own.into ptr { extras := extras } ((Content.mk [] none [] none kids restKids).struct ptr)).root text = some (.error es)) ↔
      ∀ doc, parseAst text = some (.ok doc) → ∀ v, ¬ (Content.mk [] none [] none kids restKids).ReadsRoot ptr extras doc.nodes v :=
  settles_text_error (root_settles _ _ ptr extras kids restKids hp) text

/-- **C72** for `parse` with a `Vec`: each node is a way of writing an element. -/
theorem c72_parse_vec (d : Decl) (hd : d.Proper) (text : Str) (vs : List (FVal Leaf)) :
    parseDecode (T := Ty) (vecChildren (d.node ptr)) text = some (.ok vs) ↔
      ∃ doc, parseAst text = some (.ok doc) ∧ Each2 (d.Reads ptr) doc.nodes vs :=
  settles_text (Settles.vec (decl_settles _ _ ptr d hd)) text vs

/-- **C72.** All other texts are answered with errors. -/
theorem c72_parse_vec_rejects (d : Decl) (hd : d.Proper) (text : Str) :
    (∃ es, es ≠ [] ∧ parseDecode (T := Ty) (vecChildren (d.node ptr)) text = some (.error es)) ↔
      ∀ doc, parseAst text = some (.ok doc) → ∀ vs, ¬ Each2 (d.Reads ptr) doc.nodes vs :=
  settles_text_error (Settles.vec (decl_settles _ _ ptr d hd)) text

end

/-! ### The macro -/

/-- **C72.** The decoders above are those that the macro makes of the declarations: for a struct. -/
theorem c72_macro (ptr : Nat) (own : Own) (c : Content) (h : c.Written) :
    Struct.new (c.defs ptr ++ own.defs ptr) = .ok (own.into ptr (c.struct (E := E) (S := S) ptr)) := by
  unfold Struct.new
  rw [List.foldlM_append]
  have hc := content_new E S ptr c h
  have ho : ∀ s : Struct E S Leaf, s.nodeNames = [] → s.typeNames = [] → s.extraFields = [] →
    (own.defs ptr).foldlM addDef s = .ok (own.into ptr s) := fun s => own_new E S ptr own s
  unfold addDef at hc ho
  rw [hc]
  show (own.defs ptr).foldlM _ _ = _
  obtain ⟨args, rest, props, restProps, kids, restKids⟩ := c
  exact ho _ (by simp only [Content.struct]) (by simp only [Content.struct]) (by simp only [Content.struct])

/-- **C72.** For an enum. -/
theorem c72_macro_enum (ptr : Nat) (cases : List Case) (h : ∀ k ∈ cases, k.Written) :
    enumVariants (cases.map (Case.def ptr)) = .ok (casesVariants (E := E) (S := S) ptr cases) := by
  induction cases with
  | nil => simp [enumVariants, casesVariants]
  | cons k ks ih =>
    have ih := ih fun k hk => h k (by simp [hk])
    have hk := h k (by simp)
    rw [List.map_cons, enumVariants, ih]
    cases k with
    | unit i =>
      simp only [Case.def, VariantFields.kind, casesVariants, Case.variant]
      rfl
    | nested i d =>
      simp only [Case.def, VariantFields.kind, casesVariants, Case.variant]
      rfl
    | nestedOpt i d =>
      simp only [Case.def, VariantFields.kind, casesVariants, Case.variant]
      rfl
    | tuple i c =>
      have hn : Struct.new (c.defs ptr) = .ok (c.struct (E := E) (S := S) ptr) := content_new E S ptr c hk
      have he : (c.struct (E := E) (S := S) ptr).extraFields = [] := by
        obtain ⟨args, rest, props, restProps, kids, restKids⟩ := c
        simp only [Content.struct]
      have hkind : VariantFields.kind (.unnamed (c.defs ptr)) = Except.ok (.tuple (c.struct (E := E) (S := S) ptr)) := by
        have aux : ∀ s : Struct E S Leaf, Struct.new (c.defs ptr) = .ok s → s.extraFields = [] →
            VariantFields.kind (.unnamed (c.defs ptr)) = Except.ok (.tuple s) := by
          intro s h1 h2
          obtain ⟨sp, nn, tn, ar, va, pr, vp, ch, vc, ex⟩ := s
          dsimp only at h2
          subst h2
          have hb : ∀ (x : Struct E S Leaf) (f : Struct E S Leaf → Except Str (VariantKind E S Leaf)), (Except.ok x >>= f) = f x :=
            fun _ _ => rfl
          rw [VariantFields.kind, h1, hb]
          generalize Struct.allFields (Struct.mk sp nn tn ar va pr vp ch vc []) = l
          match l with
          | [] => rfl
          | [_] => rfl
          | _ :: _ :: _ => rfl
        exact aux _ hn he
      simp only [Case.def, casesVariants, Case.variant, hkind]
      rfl

end

/-! ### An example -/

namespace Demo
open Knuffel Schema

/-- `struct { #[knuffel(argument)] i: i64 }`. -/
def point : Decl := .struct {} (.mk [⟨fld 'i', false, none, .int .i64⟩] none [] none [] .none)

/-- `enum { P(point), Q(Option<point>), R }`, where the names of the nodes are `p`, `q` and `r`. -/
def shape : Decl := .enum [.nested ['p'] point, .nestedOpt ['q'] point, .unit ['r']]

/-- `struct { argument a: String, arguments b: Vec<i64>, property u: Option<bool>, child y: bool,
child k: Option<i64> with unwrap(argument), children(name="m") m: Vec<point>, children s: Vec<shape> }`. -/
def picture : Content :=
  .mk [⟨fld 'a', false, none, .text⟩] (some ⟨fld 'b', .int .i64⟩) [⟨fld 'u', ['u'], true, none, .bool⟩] none
    [.flag ['y'], .opt ['k'] (.unwrap (fld 'k') (.mk [⟨fld 'k', false, none, .int .i64⟩] none [] none [] .none)),
      .many (fld 'm') ['m'] (.type point)]
    (.some (fld 's') (.type shape))

/-- Further fields of the struct: `node_name n: String`, `type_name t: Option<String>`, and `e` with a default. -/
def titled : Own :=
  { names := [(fld 'n', fun s => .ok (.leaf (.text s)))]
    types := [(fld 't', true, fun s => .ok (.leaf (.text s)))]
    extras := [(fld 'e', .leaf (.int 0))] }

theorem picture_proper : (Decl.struct titled picture).Proper := by
  simp only [Decl.Proper, picture, Content.Proper, kidsProper, Kid.Proper, RestKids.Proper, Inner.Proper, point, shape,
    casesProper, Case.Proper]
  refine ⟨by decide, by decide, by decide, ⟨trivial, ⟨by decide, by decide, by decide, by decide, trivial, trivial⟩, ?_, trivial⟩, ?_⟩
  · exact ⟨by decide, by decide, by decide, trivial, trivial⟩
  · exact ⟨⟨by decide, by decide, by decide, trivial, trivial⟩, ⟨by decide, by decide, by decide, trivial, trivial⟩, trivial, trivial⟩

/-- `z "t" 1 2 { q; m 3; k 4; m 5; p 6 }`. -/
def drawing : SpannedNode Nat :=
  ⟨0, .mk none ⟨0, ['z']⟩ [str ['t'], int ['1'], int ['2']] []
    (some ⟨0, [nd 'q', nd 'm' [int ['3']], nd 'k' [int ['4']], nd 'm' [int ['5']], nd 'p' [int ['6']]]⟩)⟩

/-- What is in it. -/
def drawn : FVal Leaf :=
  .record [(fld 'n', .leaf (.text ['z'])), (fld 't', .none), (fld 'a', .leaf (.text ['t'])), (fld 'b', .list [.leaf (.int 1), .leaf (.int 2)]), (fld 'u', .none),
    (fld 'y', .bool false), (fld 'k', .some (.leaf (.int 4))),
    (fld 'm', .list [.record [(fld 'i', .leaf (.int 3))], .record [(fld 'i', .leaf (.int 5))]]),
    (fld 's', .list [.variant ['q'] .none, .variant ['p'] (.record [(fld 'i', .leaf (.int 6))])]), (fld 'e', .leaf (.int 0))]

/-- The node is a way of writing the value, and it is read. -/
theorem drawn_read : (Decl.struct titled picture).Reads 64 drawing drawn ∧
    decodeNodeTop () ((Decl.struct titled picture).node 64) drawing = some (.ok drawn) := by
  have h : decodeNodeTop () ((Decl.struct titled picture).node 64) drawing = some (.ok drawn) := by rfl
  exact ⟨(c72_accepts 64 _ picture_proper () drawing drawn).1 h, h⟩

/-- `p` without an argument is not a way of writing a shape. -/
example : ∀ v, ¬ shape.Reads 64 (nd 'p') v := by
  have h : ∃ es, decodeNodeTop () (shape.node 64) (nd 'p') = some (.error es) := ⟨_, rfl⟩
  have hp : shape.Proper := by
    simp only [Decl.Proper, Content.Proper, kidsProper, RestKids.Proper, point, shape, casesProper, Case.Proper]
    exact ⟨⟨by decide, by decide, by decide, trivial, trivial⟩, ⟨by decide, by decide, by decide, trivial, trivial⟩, trivial, trivial⟩
  intro v hv
  obtain ⟨es, h⟩ := h
  rw [(c72_accepts 64 shape hp () (nd 'p') v).2 hv] at h
  simp at h

/-- `p 7` is a way of writing the shape `P(7)`, seen from the specification alone. -/
example : shape.Reads 64 (nd 'p' [int ['7']]) (.variant ['p'] (.record [(fld 'i', .leaf (.int 7))])) := by
  rw [shape, Decl.Reads, casesRead, if_pos (by decide), Case.Reads]
  refine ⟨_, rfl, ?_⟩
  rw [point, Decl.Reads]
  refine ⟨[], [], [(fld 'i', .leaf (.int 7))], rfl, .nil, ⟨fun _ => rfl, .nil⟩, ?_⟩
  rw [Content.Reads]
  refine ⟨rfl, ?_, by decide, by simp, by simp [nd, Node.properties], ?_, ?_⟩
  · intro i a ha
    cases i with
    | succ i => simp at ha
    | zero =>
      simp only [List.getElem?_cons_zero, Option.some.injEq] at ha
      subst ha
      refine ⟨.leaf (.int 7), by simp, ?_⟩
      show Scal.ReadsIn 64 (.int .i64) false (int ['7']) _
      refine ⟨by simp [Scal.Annotation, int], .dec, ['7'], 7, rfl, ?_, rfl⟩
      rw [← tryFrom_ok]
      rfl
  · rw [kidsRead]; trivial
  · rw [RestKids.Reads]; rfl

/-- The declaration is one that the macro takes. -/
example : picture.Written := by
  simp only [picture, Content.Written, kidsWritten, Kid.Written, RestKids.Written, Inner.Written, Content.Inside]
  exact ⟨⟨trivial, ⟨rfl, ⟨rfl, by simp, by simp, by simp⟩, trivial, trivial⟩, trivial, trivial⟩, trivial⟩

end Demo

end Knuffel
