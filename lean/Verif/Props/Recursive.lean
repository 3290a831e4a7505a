import Verif.Theory.Recursive
import Verif.Props.Schema
/-!
# C83: types that refer to themselves and to each other

`struct Tree { #[knuffel(argument)] i: i64, #[knuffel(children(name="t"))] t: Vec<Tree> }` is implemented by a
function that calls itself, and types that refer to each other by functions that call each other.  If no type hands
on the whole node to itself (be it through others), exactly one function for each type satisfies the equations that
the generated code is; these come to an end on every node, and read exactly what the finite unfoldings of the types
read.  A type that is also used for the node itself has no such function, or not only one.
-/

namespace Knuffel
open Schema

section
variable {E S : Type} [Externals] (ptr : Nat)

/-! ### The functions -/

/-- **C83.** There are functions that satisfy the equations. -/
theorem c83_exists (ds : Str → Decl) (R : Nat) (hg : Grounded ds R) : ∃ dec : Str → NodeDecoder E S (FVal Leaf), DecodedBy ptr ds dec :=
  ⟨_, unfolded_decodedBy ptr hg⟩

/-- **C83.** There is only one for each type. -/
theorem c83_only (ds : Str → Decl) (R : Nat) (hg : Grounded ds R) (f g : Str → NodeDecoder E S (FVal Leaf))
    (hf : DecodedBy ptr ds f) (hh : DecodedBy ptr ds g) : f = g := by
  funext name n
  obtain ⟨k, hk⟩ := exists_within n
  rw [decodedBy_unfold ptr hg hf (Nat.le_refl _) name n hk, decodedBy_unfold ptr hg hh (Nat.le_refl _) name n hk]

/-- **C83.** It is reached after as many calls inside one another as there are levels of nodes, times the number of
types that one and the same node may be handed through: with the type that has no values in place of what is deeper,
the result is the same, error for error. -/
theorem c83_depth (ds : Str → Decl) (R : Nat) (hg : Grounded ds R) (dec : Str → NodeDecoder E S (FVal Leaf)) (h : DecodedBy ptr ds dec)
    (k : Nat) (name : Str) (n : SpannedNode S) (hn : Within k n) : dec name n = (unfolding ds (k * (R + 1)) name).node ptr n :=
  decodedBy_unfold ptr hg h (Nat.le_refl _) name n hn

omit [Externals] in
/-- **C83.** Every node has some number of levels. -/
theorem c83_levels (n : SpannedNode S) : ∃ k, Within k n := exists_within n

/-! ### What they read -/

theorem recursive_reads {ds : Str → Decl} {R : Nat} (hg : Grounded ds R) (hd : ∀ name, (ds name).Proper) {K k : Nat}
    (hK : k * (R + 1) ≤ K) (name : Str) {n : SpannedNode S} (hn : Within k n) (v : FVal Leaf) :
    (unfolding ds K name).Reads ptr n v ↔ ReadsRec ptr ds name n v := by
  refine ⟨fun h => ⟨K, h⟩, fun ⟨j, h⟩ => ?_⟩
  have h1 := (c72_accepts ptr _ (proper_unfold hd (K + j) name) () n v).2 (reads_unfold_le ptr ds (Nat.le_add_left j K) h)
  rw [← c72_accepts ptr _ (proper_unfold hd K name) () n v, ← h1]
  unfold decodeNodeTop
  rw [unfold_stable ptr hg j hK name n hn]

theorem recursive_settles {ds : Str → Decl} {R : Nat} (hg : Grounded ds R) (hd : ∀ name, (ds name).Proper)
    {dec : Str → NodeDecoder E S (FVal Leaf)} (h : DecodedBy ptr ds dec) (name : Str)
    (n : SpannedNode S) : Settles (dec name n) (ReadsRec ptr ds name n) := by
  obtain ⟨k, hk⟩ := exists_within n
  rw [decodedBy_unfold ptr hg h (Nat.le_refl _) name n hk]
  exact (decl_settles E S ptr _ (proper_unfold hd _ name) n).imp (recursive_reads ptr hg hd (Nat.le_refl _) name hk)

/-- **C83** for `decode::node`: what is accepted. -/
theorem c83_accepts (ds : Str → Decl) (R : Nat) (hg : Grounded ds R) (hd : ∀ name, (ds name).Proper)
    (dec : Str → NodeDecoder E S (FVal Leaf)) (h : DecodedBy ptr ds dec) (name : Str)
    (empty : E) (n : SpannedNode S) (v : FVal Leaf) :
    decodeNodeTop empty (dec name) n = some (.ok v) ↔ ReadsRec ptr ds name n v :=
  (recursive_settles ptr hg hd h name n).finish empty v

/-- **C83** for `decode::node`: everything else is answered with errors, at least one. -/
theorem c83_rejects (ds : Str → Decl) (R : Nat) (hg : Grounded ds R) (hd : ∀ name, (ds name).Proper)
    (dec : Str → NodeDecoder E S (FVal Leaf)) (h : DecodedBy ptr ds dec) (name : Str) (empty : E) (n : SpannedNode S) :
    (∃ es, es ≠ [] ∧ decodeNodeTop empty (dec name) n = some (.error es)) ↔ ∀ v, ¬ ReadsRec ptr ds name n v :=
  (recursive_settles ptr hg hd h name n).finish_error empty

omit [Externals] in
/-- **C83.** A node is a way of writing at most one value. -/
theorem c83_unique [Externals] (ds : Str → Decl) (hd : ∀ name, (ds name).Proper) (name : Str) (n : SpannedNode S) (v w : FVal Leaf)
    (hv : ReadsRec ptr ds name n v) (hw : ReadsRec ptr ds name n w) : v = w := by
  obtain ⟨j, hv⟩ := hv
  obtain ⟨k, hw⟩ := hw
  exact c72_unique ptr _ (proper_unfold hd (j + k) name) n v w (reads_unfold_le ptr ds (Nat.le_add_right j k) hv)
    (reads_unfold_le ptr ds (Nat.le_add_left k j) hw)

/-- **C83.** Such functions do not panic, only add errors, and do not look at those that were there. -/
theorem c83_tame (ds : Str → Decl) (R : Nat) (hg : Grounded ds R) (dec : Str → NodeDecoder E S (FVal Leaf)) (h : DecodedBy ptr ds dec)
    (name : Str) (n : SpannedNode S) : Tame (dec name n) := by
  obtain ⟨k, hk⟩ := exists_within n
  rw [decodedBy_unfold ptr hg h (Nat.le_refl _) name n hk]
  exact tame_decl E S ptr _ n

/-! ### Types around it -/

theorem around_settles {ds : Str → Decl} {R : Nat} {e : Decl} (hg : Grounded ds R) (hd : ∀ name, (ds name).Proper) (he : e.Proper) {dec : Str → NodeDecoder E S (FVal Leaf)}
    (h : DecodedBy ptr ds dec) (n : SpannedNode S) :
    Settles (e.body ptr dec n) (fun v => ∃ k, (fillDecl (unfolding ds k) e).Reads ptr n v) := by
  obtain ⟨k, hk⟩ := exists_within n
  obtain ⟨K, hK⟩ : ∃ K, k * (R + 1) ≤ K := ⟨_, Nat.le_refl _⟩
  rw [body_agree ptr _ (fun name => (unfolding ds K name).node ptr) k (decodedBy_unfold ptr hg h hK) e n hk, ← fill_node]
  refine (decl_settles E S ptr _ (proper_fill _ (proper_unfold hd K) e he) n).imp fun v => ⟨fun h => ⟨K, h⟩, fun ⟨j, h⟩ => ?_⟩
  have h1 := (c72_accepts ptr _ (proper_fill _ (proper_unfold hd (K + j)) e he) () n v).2
    (reads_fill ptr (fun _ _ _ h => reads_unfold_le ptr ds (Nat.le_add_left j K) h) e n v h)
  rw [← c72_accepts ptr _ (proper_fill _ (proper_unfold hd K) e he) () n v, ← h1]
  unfold decodeNodeTop
  rw [fill_node, fill_node, body_agree ptr _ (fun name => (unfolding ds K name).node ptr) k (unfold_stable ptr hg j hK) e n hk]

/-- **C83** for a type `e` that has such types inside: what is accepted. -/
theorem c83_around (ds : Str → Decl) (R : Nat) (e : Decl) (hg : Grounded ds R) (hd : ∀ name, (ds name).Proper) (he : e.Proper) (dec : Str → NodeDecoder E S (FVal Leaf))
    (h : DecodedBy ptr ds dec) (empty : E) (n : SpannedNode S) (v : FVal Leaf) :
    decodeNodeTop empty (e.body ptr dec) n = some (.ok v) ↔ ∃ k, (fillDecl (unfolding ds k) e).Reads ptr n v :=
  (around_settles ptr hg hd he h n).finish empty v

/-- **C83.** All other nodes are answered with errors. -/
theorem c83_around_rejects (ds : Str → Decl) (R : Nat) (e : Decl) (hg : Grounded ds R) (hd : ∀ name, (ds name).Proper) (he : e.Proper) (dec : Str → NodeDecoder E S (FVal Leaf))
    (h : DecodedBy ptr ds dec) (empty : E) (n : SpannedNode S) :
    (∃ es, es ≠ [] ∧ decodeNodeTop empty (e.body ptr dec) n = some (.error es)) ↔ ∀ k v, ¬ (fillDecl (unfolding ds k) e).Reads ptr n v := by
  refine ((around_settles ptr hg hd he h n).finish_error empty).trans ?_
  exact ⟨fun h k v hv => h v ⟨k, hv⟩, fun h v ⟨k, hv⟩ => h k v hv⟩

/-! ### Texts -/

theorem root_like (extras : List (AttrAccess × FVal Leaf)) (c : Content) {k : Nat} {f g : Str → NodeDecoder E S (FVal Leaf)}
    (hfg : ∀ name n, Within k n → f name n = g name n) (nodes : List (SpannedNode S)) (hk : ∀ m ∈ nodes, Within k m) :
    (Own.into ptr { extras := extras } (c.structBody ptr f)).root nodes = (Own.into ptr { extras := extras } (c.structBody ptr g)).root nodes := by
  have hl := content_like ptr f g k hfg c
  unfold Struct.root
  rw [decodeChildren_like (s := Own.into ptr { extras := extras } (c.structBody ptr f))
    (s' := Own.into ptr { extras := extras } (c.structBody ptr g)) hl.children hl.rest none nodes hk]
  rfl

theorem root_fill_settles (E : Type) {ds : Str → Decl} (hd : ∀ name, (ds name).Proper) (extras : List (AttrAccess × FVal Leaf)) (kids : List Kid) (restKids : RestKids)
    (hp : (Content.mk [] none [] none kids restKids).Proper) (nodes : List (SpannedNode S)) (j : Nat) :
    Settles (E := E) ((Own.into ptr { extras := extras } (((Content.mk [] none [] none kids restKids).fill (unfolding ds j)).struct ptr)).root nodes)
      (((Content.mk [] none [] none kids restKids).fill (unfolding ds j)).ReadsRoot ptr extras nodes) := by
  have hpj := proper_fill_content _ (proper_unfold hd j) _ hp
  rw [Content.fill] at hpj ⊢
  exact root_settles E S ptr extras _ _ hpj nodes

theorem root_around_settles {ds : Str → Decl} {R : Nat} (hg : Grounded ds R) (hd : ∀ name, (ds name).Proper) {dec : Str → NodeDecoder E S (FVal Leaf)} (h : DecodedBy ptr ds dec)
    (extras : List (AttrAccess × FVal Leaf)) (kids : List Kid) (restKids : RestKids)
    (hp : (Content.mk [] none [] none kids restKids).Proper) (nodes : List (SpannedNode S)) :
    Settles ((Own.into ptr { extras := extras } ((Content.mk [] none [] none kids restKids).structBody ptr dec)).root nodes)
      (fun v => ∃ k, ((Content.mk [] none [] none kids restKids).fill (unfolding ds k)).ReadsRoot ptr extras nodes v) := by
  obtain ⟨k, hk⟩ := within_list fun m (_ : m ∈ nodes) => exists_within m
  obtain ⟨K, hK⟩ : ∃ K, k * (R + 1) ≤ K := ⟨_, Nat.le_refl _⟩
  rw [root_like ptr extras _ (g := fun name => (unfolding ds K name).node ptr) (decodedBy_unfold ptr hg h hK) nodes hk, ← fill_content]
  refine (root_fill_settles ptr E hd extras kids restKids hp nodes K).imp fun v => ⟨fun h => ⟨K, h⟩, fun ⟨j, h⟩ => ?_⟩
  have mono : ((Content.mk [] none [] none kids restKids).fill (unfolding ds (K + j))).ReadsRoot ptr extras nodes v := by
    have hf := fields_fill (unfolding ds j) (.mk [] none [] none kids restKids)
    have hq := fields_fill (unfolding ds (K + j)) (.mk [] none [] none kids restKids)
    rw [Content.fill] at h hf hq ⊢
    obtain ⟨env, h1, h2, h3, h4⟩ := h
    have up : ∀ name (n : SpannedNode S) v, (unfolding ds j name).Reads ptr n v → (unfolding ds (K + j) name).Reads ptr n v :=
      fun _ _ _ h => reads_unfold_le ptr ds (Nat.le_add_left j K) h
    rw [kids_fill_name] at h4
    refine ⟨env, h1, by rw [hq, ← hf]; exact h2, reads_fill_kids ptr up kids _ _ h3, ?_⟩
    rw [kids_fill_name]
    exact reads_fill_rest ptr up restKids _ _ h4
  have h2 := (root_fill_settles ptr Unit hd extras kids restKids hp nodes (K + j)).back v mono ⟨[], ()⟩
  rw [fill_content, root_like ptr extras _ (g := fun name => (unfolding ds K name).node ptr) (unfold_stable ptr hg j hK) nodes hk, ← fill_content] at h2
  exact ((root_fill_settles ptr Unit hd extras kids restKids hp nodes K).ok _ _ _ h2 rfl).2

/-- **C83** for `parse` with a struct of children around it. -/
theorem c83_parse {Ty : TypeId → Type} (ds : Str → Decl) (R : Nat) (hg : Grounded ds R) (hd : ∀ name, (ds name).Proper)
    (dec : Str → NodeDecoder (Extensions Ty) (Sp Nat) (FVal Leaf)) (h : DecodedBy ptr ds dec) (extras : List (AttrAccess × FVal Leaf))
    (kids : List Kid) (restKids : RestKids) (hp : (Content.mk [] none [] none kids restKids).Proper) (text : Str) (v : FVal Leaf) :
    parseDecode (Own.into ptr { extras := extras } ((Content.mk [] none [] none kids restKids).structBody ptr dec)).root text = some (.ok v) ↔
      ∃ doc, parseAst text = some (.ok doc) ∧
        ∃ k, ((Content.mk [] none [] none kids restKids).fill (unfolding ds k)).ReadsRoot ptr extras doc.nodes v :=
  settles_text (root_around_settles ptr hg hd h extras kids restKids hp) text v

/-- **C83.** All other texts are answered with errors. -/
theorem c83_parse_rejects {Ty : TypeId → Type} (ds : Str → Decl) (R : Nat) (hg : Grounded ds R) (hd : ∀ name, (ds name).Proper)
    (dec : Str → NodeDecoder (Extensions Ty) (Sp Nat) (FVal Leaf)) (h : DecodedBy ptr ds dec) (extras : List (AttrAccess × FVal Leaf))
    (kids : List Kid) (restKids : RestKids) (hp : (Content.mk [] none [] none kids restKids).Proper) (text : Str) :
    (∃ es, es ≠ [] ∧ parseDecode (Own.into ptr { extras := extras } ((Content.mk [] none [] none kids restKids).structBody ptr dec)).root text = some (.error es)) ↔
      ∀ doc, parseAst text = some (.ok doc) →
        ∀ v, ¬ ∃ k, ((Content.mk [] none [] none kids restKids).fill (unfolding ds k)).ReadsRoot ptr extras doc.nodes v :=
  settles_text_error (root_around_settles ptr hg hd h extras kids restKids hp) text

/-- **C83** for `parse` with a `Vec` of the type: each node is a way of writing an element. -/
theorem c83_parse_vec {Ty : TypeId → Type} (ds : Str → Decl) (R : Nat) (hg : Grounded ds R) (hd : ∀ name, (ds name).Proper)
    (dec : Str → NodeDecoder (Extensions Ty) (Sp Nat) (FVal Leaf)) (h : DecodedBy ptr ds dec) (name : Str) (text : Str) (vs : List (FVal Leaf)) :
    parseDecode (vecChildren (dec name)) text = some (.ok vs) ↔ ∃ doc, parseAst text = some (.ok doc) ∧ Each2 (ReadsRec ptr ds name) doc.nodes vs :=
  settles_text (Settles.vec (recursive_settles ptr hg hd h name)) text vs

/-- **C83.** All other texts are answered with errors. -/
theorem c83_parse_vec_rejects {Ty : TypeId → Type} (ds : Str → Decl) (R : Nat) (hg : Grounded ds R) (hd : ∀ name, (ds name).Proper)
    (dec : Str → NodeDecoder (Extensions Ty) (Sp Nat) (FVal Leaf)) (h : DecodedBy ptr ds dec) (name : Str) (text : Str) :
    (∃ es, es ≠ [] ∧ parseDecode (vecChildren (dec name)) text = some (.error es)) ↔
      ∀ doc, parseAst text = some (.ok doc) → ∀ vs, ¬ Each2 (ReadsRec ptr ds name) doc.nodes vs :=
  settles_text_error (Settles.vec (recursive_settles ptr hg hd h name)) text

/-! ### The type for the node itself -/

/-- **C83** fails without the proviso: no function that `enum Me { A(Box<Me>), .. }` can be implemented by gives a
value for a node `a`, whatever is in it. -/
theorem c83_unguarded (ds : Str → Decl) (me ident : Str) (cases : List Case) (hme : ds me = .enum (.nested ident (.ref me) :: cases))
    (n : SpannedNode S) (hn : n.value.nodeName.value = Externals.kebab ident)
    (dec : Str → NodeDecoder E S (FVal Leaf)) (hdec : DecodedBy ptr ds dec)
    (c c' : Ctx E S) (v : FVal Leaf) : dec me n c ≠ .ok v c' := by
  intro hv
  have key := hdec me n
  have hr : refName (Case.nested ident (.ref me) :: cases) = none := by cases cases <;> rfl
  have hs : refName [Case.nested me (.enum [])] = some me := rfl
  rw [hme, Decl.body, hr] at key
  dsimp only at key
  rw [casesBody, Case.variantBody, Decl.body, hs] at key
  unfold enumNode at key
  rw [enumArms, if_pos hn] at key
  have h : dec me n c = D.bind (dec me n) (fun x => D.pure (.variant ident x)) c := congrFun key c
  unfold D.bind at h
  rw [hv] at h
  have h3 : v = .variant ident v := by injection h
  have := congrArg sizeOf h3
  simp at this

/-- **C83** fails without the proviso: the equation of `enum Me { A(Box<Me>) }` is satisfied by a function that panics
on all nodes `a` as well as by one that gives an error for them, so it does not say what happens.  (The code calls
itself with the same node forever.) -/
theorem c83_unguarded_many (me ident : Str) : ∃ f g : Str → NodeDecoder E S (FVal Leaf),
    DecodedBy ptr (fun _ => .enum [.nested ident (.ref me)]) f ∧ DecodedBy ptr (fun _ => .enum [.nested ident (.ref me)]) g ∧
    ∀ n : SpannedNode S, n.value.nodeName.value = Externals.kebab ident → ∀ c, f me n c = .panic ∧ ∃ e, g me n c = .err e c := by
  have key : ∀ (dec : Str → NodeDecoder E S (FVal Leaf)) n, (Decl.enum [.nested ident (.ref me)]).body ptr dec n =
      if n.value.nodeName.value = Externals.kebab ident then D.bind (dec me n) (fun x => D.pure (.variant ident x))
      else D.fail (DErr.conv n.value.nodeName (.text (variantError [Externals.kebab ident]))) := by
    intro dec n
    have hr : refName [Case.nested ident (.ref me)] = none := rfl
    have hs : refName [Case.nested me (.enum [])] = some me := rfl
    rw [Decl.body, hr]
    dsimp only
    rw [casesBody, casesBody, Case.variantBody, Decl.body, hs]
    unfold enumNode
    rw [enumArms, enumArms]
    rfl
  have sol : ∀ x : SpannedNode S → D E S (FVal Leaf), (∀ n, D.bind (x n) (fun y => D.pure (.variant ident y)) = x n) →
      ∃ dec : Str → NodeDecoder E S (FVal Leaf), DecodedBy ptr (fun _ => .enum [.nested ident (.ref me)]) dec ∧
        ∀ n, n.value.nodeName.value = Externals.kebab ident → dec me n = x n := by
    intro x hx
    obtain ⟨dec, hdec⟩ : ∃ dec : Str → NodeDecoder E S (FVal Leaf), ∀ name n, dec name n =
        if n.value.nodeName.value = Externals.kebab ident then x n
        else D.fail (DErr.conv n.value.nodeName (.text (variantError [Externals.kebab ident]))) := ⟨_, fun _ _ => rfl⟩
    refine ⟨dec, fun name n => ?_, fun n hn => by rw [hdec, if_pos hn]⟩
    rw [key, hdec, hdec]
    by_cases hn : n.value.nodeName.value = Externals.kebab ident
    · rw [if_pos hn, if_pos hn]; exact (hx n).symm
    · rw [if_neg hn, if_neg hn]
  obtain ⟨f, hf, hf'⟩ := sol (fun _ _ => .panic) fun _ => rfl
  obtain ⟨g, hg, hg'⟩ := sol (fun n => D.fail (.unsupported n.span [])) fun _ => rfl
  refine ⟨f, g, hf, hg, fun n hn c => ?_⟩
  rw [hf' n hn, hg' n hn]
  exact ⟨rfl, _, rfl⟩

end

/-! ### Examples -/

namespace Demo
open Knuffel Schema

/-- A name. -/
abbrev me : Str := ['M', 'e']

/-- `struct Me { #[knuffel(argument)] i: i64, #[knuffel(children(name="t"))] t: Vec<Me> }`. -/
def tree (_ : Str) : Decl :=
  .struct {} (.mk [⟨fld 'i', false, none, .int .i64⟩] none [] none [.many (fld 't') ['t'] (.type (.ref me))] .none)

/-- `enum Me { N(#[knuffel(argument)] i64), S(#[knuffel(children)] Vec<Me>), T(Option<pair of optional ones>) }`, where the
names of the nodes are `n`, `s` and `t`. -/
def term (_ : Str) : Decl :=
  .enum [.tuple ['n'] (.mk [⟨.indexed 0, false, none, .int .i64⟩] none [] none [] .none),
    .tuple ['s'] (.mk [] none [] none [] (.some (.indexed 0) (.type (.ref me)))),
    .nestedOpt ['t'] (.struct {} (.mk [] none [] none [.opt ['n'] (.type (.ref me)), .opt ['s'] (.type (.ref me))] .none))]

theorem tree_guarded : Grounded tree 0 := ⟨fun _ => 0, fun _ => ⟨Nat.le_refl _, by rw [tree, Decl.Guarded]; trivial⟩⟩

theorem term_guarded : Grounded term 0 := by
  refine ⟨fun _ => 0, fun _ => ⟨Nat.le_refl _, ?_⟩⟩
  simp only [term, Decl.Guarded, refName, casesGuarded, Case.Guarded]
  exact ⟨trivial, trivial, trivial, trivial⟩

theorem tree_proper : ∀ name, (tree name).Proper := by
  intro _
  simp only [tree, Decl.Proper, Content.Proper, kidsProper, Kid.Proper, RestKids.Proper, Inner.Proper, casesProper, Case.Proper, and_true]
  exact ⟨by decide, by decide, by decide⟩

theorem term_proper : ∀ name, (term name).Proper := by
  intro _
  simp only [term, Decl.Proper, Content.Proper, kidsProper, Kid.Proper, RestKids.Proper, Inner.Proper, casesProper, Case.Proper, and_true]
  exact ⟨⟨by decide, by decide, by decide⟩, ⟨by decide, by decide, by decide⟩, by decide, by decide, by decide⟩

/-- A node with an argument and children. -/
def branch (name : Char) (args : List (Value Nat)) (kids : List (SpannedNode Nat)) : SpannedNode Nat :=
  ⟨0, .mk none ⟨0, [name]⟩ args [] (some ⟨0, kids⟩)⟩

/-- `t 1 { t 2 { t 3 }; t 4 }`. -/
def grown : SpannedNode Nat :=
  branch 't' [int ['1']] [branch 't' [int ['2']] [nd 't' [int ['3']]], nd 't' [int ['4']]]

/-- The value of a tree. -/
def treeOf (i : Int) (ts : List (FVal Leaf)) : FVal Leaf := .record [(fld 'i', .leaf (.int i)), (fld 't', .list ts)]

/-- It has less than three levels below, not less than two. -/
example : Within 3 grown ∧ ¬ Within 2 grown := by
  constructor
  · simp [Within, grown, branch, nd, Node.childNodes, Node.children]
  · simp [Within, grown, branch, nd, Node.childNodes, Node.children]

/-- It is the tree one sees. -/
theorem grown_read : ReadsRec 64 tree me grown (treeOf 1 [treeOf 2 [treeOf 3 []], treeOf 4 []]) :=
  ⟨3, (c72_accepts (E := Unit) 64 _ (proper_unfold tree_proper 3 me) () grown _).1 (by rfl)⟩

/-- Two unfoldings do not suffice. -/
example : ∃ es, decodeNodeTop () ((unfolding tree 2 me).node 64) grown = some (.error es) := ⟨_, rfl⟩

/-- Whatever implements the type reads it so. -/
example (dec : Str → NodeDecoder Unit Nat (FVal Leaf)) (h : DecodedBy 64 tree dec) :
    decodeNodeTop () (dec me) grown = some (.ok (treeOf 1 [treeOf 2 [treeOf 3 []], treeOf 4 []])) :=
  (c83_accepts 64 tree 0 tree_guarded tree_proper dec h me () grown _).2 grown_read

/-- A fault three levels down is found: `t 1 { t 2 { t } }`. -/
example (dec : Str → NodeDecoder Unit Nat (FVal Leaf)) (h : DecodedBy 64 tree dec) :
    ∃ es, decodeNodeTop () (dec me) (branch 't' [int ['1']] [branch 't' [int ['2']] [nd 't']]) = some (.error es) := by
  unfold decodeNodeTop
  rw [c83_depth 64 tree 0 tree_guarded dec h 3 me _ (by simp [Within, branch, nd, Node.childNodes, Node.children])]
  exact ⟨_, rfl⟩

/-- `s { n 1; t; t { n 2 } }` is a term. -/
example (dec : Str → NodeDecoder Unit Nat (FVal Leaf)) (h : DecodedBy 64 term dec) :
    decodeNodeTop () (dec me) (branch 's' [] [nd 'n' [int ['1']], nd 't', branch 't' [] [nd 'n' [int ['2']]]]) =
      some (.ok (.variant ['s'] (.record [(.indexed 0, .list [.variant ['n'] (.record [(.indexed 0, .leaf (.int 1))]),
        .variant ['t'] .none, .variant ['t'] (.some (.record [(fld 'n', .some (.variant ['n'] (.record [(.indexed 0, .leaf (.int 2))]))), (fld 's', .none)]))])]))) := by
  unfold decodeNodeTop
  rw [c83_depth 64 term 0 term_guarded dec h 3 me _ (by simp [Within, branch, nd, Node.childNodes, Node.children])]
  rfl

/-- `struct { #[knuffel(child)] t: Option<tree> }`: `z { t 1 { t 2 } }`. -/
example (dec : Str → NodeDecoder Unit Nat (FVal Leaf)) (h : DecodedBy 64 tree dec) :
    decodeNodeTop () ((Decl.struct {} (.mk [] none [] none [.opt ['t'] (.type (.ref me))] .none)).body 64 dec)
      (branch 'z' [] [branch 't' [int ['1']] [nd 't' [int ['2']]]]) =
      some (.ok (.record [(fld 't', .some (treeOf 1 [treeOf 2 []]))])) := by
  have hp : (Decl.struct {} (.mk [] none [] none [.opt ['t'] (.type (.ref me))] .none)).Proper := by
    simp only [Decl.Proper, Content.Proper, kidsProper, Kid.Proper, RestKids.Proper, Inner.Proper, casesProper, Case.Proper, and_true]
    exact ⟨by decide, by decide, by decide⟩
  exact (c83_around 64 tree 0 _ tree_guarded tree_proper hp dec h () _ _).2
    ⟨2, (c72_accepts (E := Unit) 64 _ (proper_fill _ (proper_unfold tree_proper 2) _ hp) () _ _).1 (by rfl)⟩

/-- What is made of the document by the second unfolding is the tree of two nodes. -/
def twoNodes (d : Document (Sp Nat)) : Bool :=
  match d.nodes with
  | [n] =>
    match decodeNodeTop () ((unfolding tree 2 me).node 64) n with
    | some (.ok (.record [(.named ['i'], .leaf (.int 1)), (.named ['t'], .list [.record [(.named ['i'], .leaf (.int 2)), (.named ['t'], .list [])]])])) => true
    | _ => false
  | _ => false

theorem twoNodes_spec {d : Document (Sp Nat)} (h : twoNodes d = true) : Each2 (ReadsRec 64 tree me) d.nodes [treeOf 1 [treeOf 2 []]] := by
  unfold twoNodes at h
  split at h
  · rename_i n hn
    split at h
    · rename_i h1
      rw [hn]
      exact .cons ⟨2, (c72_accepts (E := Unit) 64 _ (proper_unfold tree_proper 2 me) () n _).1 h1⟩ .nil
    · cases h
  · cases h

/-- A text. -/
example {Ty : TypeId → Type} (dec : Str → NodeDecoder (Extensions Ty) (Sp Nat) (FVal Leaf)) (h : DecodedBy 64 tree dec) :
    parseDecode (vecChildren (dec me)) "t 1 { t 2\n }".toList = some (.ok [treeOf 1 [treeOf 2 []]]) := by
  obtain ⟨doc, hdoc, h2⟩ := of_parse (text := "t 1 { t 2\n }".toList) twoNodes (by decide +kernel)
  exact (c83_parse_vec 64 tree 0 tree_guarded tree_proper dec h me _ _).2 ⟨doc, hdoc, twoNodes_spec h2⟩

/-- For `c83_rejects`: no tree is written as `t`, and there are errors. -/
example (dec : Str → NodeDecoder Unit Nat (FVal Leaf)) (h : DecodedBy 64 tree dec) :
    (∀ v, ¬ ReadsRec 64 tree me (nd 't') v) ∧ ∃ es, es ≠ [] ∧ decodeNodeTop () (dec me) (nd 't') = some (.error es) := by
  have h1 : ∃ es, es ≠ [] ∧ decodeNodeTop () (dec me) (nd 't') = some (.error es) := by
    unfold decodeNodeTop
    rw [c83_depth 64 tree 0 tree_guarded dec h 1 me _ (by simp [Within, nd, Node.childNodes, Node.children])]
    exact ⟨_, by simp [Ctx.emitError, Ctx.intoErrors], rfl⟩
  exact ⟨(c83_rejects 64 tree 0 tree_guarded tree_proper dec h me () _).1 h1, h1⟩

/-- `struct { #[knuffel(child)] t: Option<Self> }`, where another type is put for `Self`. -/
def holder : Content := .mk [] none [] none [.opt ['t'] (.type (.ref me))] .none

theorem holder_proper : holder.Proper := by
  simp only [holder, Content.Proper, kidsProper, Kid.Proper, RestKids.Proper, Inner.Proper, Decl.Proper, casesProper, Case.Proper, and_true]
  exact ⟨by decide, by decide, by decide⟩

/-- For `c83_around_rejects`: in `z { t }` there is no tree, whatever the number of unfoldings. -/
example (dec : Str → NodeDecoder Unit Nat (FVal Leaf)) (h : DecodedBy 64 tree dec) :
    (∀ k v, ¬ (fillDecl (unfolding tree k) (.struct {} holder)).Reads 64 (branch 'z' [] [nd 't']) v) ∧
    ∃ es, es ≠ [] ∧ decodeNodeTop () ((Decl.struct {} holder).body 64 dec) (branch 'z' [] [nd 't']) = some (.error es) := by
  have hp : (Decl.struct {} holder).Proper := by rw [Decl.Proper]; exact holder_proper
  have h1 : ∀ k v, ¬ (fillDecl (unfolding tree k) (.struct {} holder)).Reads 64 (branch 'z' [] [nd 't']) v := by
    intro k v hv
    have hu := proper_fill _ (proper_unfold tree_proper k) _ hp
    have h2 := (c72_accepts (E := Unit) 64 _ hu () _ v).2 hv
    cases k with
    | zero => revert h2; intro h2; cases h2
    | succ k => revert h2; intro h2; cases h2
  exact ⟨h1, (c83_around_rejects 64 tree 0 _ tree_guarded tree_proper hp dec h () _).2 h1⟩

/-- What is made of the document by the struct around the second unfolding is the tree of two nodes. -/
def heldNodes (d : Document (Sp Nat)) : Bool :=
  match (Own.into 64 { extras := [] } ((holder.fill (unfolding tree 2)).struct 64)).root d.nodes ⟨[], ()⟩ with
  | .ok (.record [(.named ['t'], .some (.record [(.named ['i'], .leaf (.int 1)), (.named ['t'], .list [.record [(.named ['i'], .leaf (.int 2)), (.named ['t'], .list [])]])]))]) ⟨[], ()⟩ => true
  | _ => false

/-- For `c83_parse`: a text. -/
example {Ty : TypeId → Type} (dec : Str → NodeDecoder (Extensions Ty) (Sp Nat) (FVal Leaf)) (h : DecodedBy 64 tree dec) :
    parseDecode (Own.into 64 { extras := [] } (holder.structBody 64 dec)).root "t 1 { t 2\n }".toList =
      some (.ok (.record [(fld 't', .some (treeOf 1 [treeOf 2 []]))])) := by
  obtain ⟨doc, hdoc, h2⟩ := of_parse (text := "t 1 { t 2\n }".toList) heldNodes (by decide +kernel)
  refine (c83_parse 64 tree 0 tree_guarded tree_proper dec h [] _ _ holder_proper _ _).2 ⟨doc, hdoc, 2, ?_⟩
  unfold heldNodes at h2
  split at h2
  · rename_i h3
    exact ((root_fill_settles 64 Unit tree_proper [] _ _ holder_proper doc.nodes 2).ok _ _ _ h3 rfl).2
  · cases h2

/-- The nodes of the document have no children, and the first unfolding does not read them: neither one by one, nor as
the struct. -/
def notHeld (d : Document (Sp Nat)) : Bool :=
  d.nodes.all (fun n => n.value.childNodes.isEmpty &&
    match decodeNodeTop () ((unfolding tree 1 me).node 64) n with | some (.ok _) => false | _ => true) && !d.nodes.isEmpty &&
  match (Own.into 64 { extras := [] } ((holder.fill (unfolding tree 1)).struct 64)).root d.nodes ⟨[], ()⟩ with
  | .ok _ ⟨[], ()⟩ => false
  | _ => true

/-- For `c83_parse_rejects`, `c83_parse_vec_rejects`: another text. -/
example {Ty : TypeId → Type} (dec : Str → NodeDecoder (Extensions Ty) (Sp Nat) (FVal Leaf)) (h : DecodedBy 64 tree dec) :
    (∃ es, es ≠ [] ∧ parseDecode (Own.into 64 { extras := [] } (holder.structBody 64 dec)).root "t".toList = some (.error es)) ∧
    ∃ es, es ≠ [] ∧ parseDecode (vecChildren (dec me)) "t".toList = some (.error es) := by
  obtain ⟨doc, hdoc, h2⟩ := of_parse (text := "t".toList) notHeld (by decide +kernel)
  simp only [notHeld, Bool.and_eq_true, List.all_eq_true, Bool.not_eq_true', List.isEmpty_iff] at h2
  obtain ⟨⟨h3, h4⟩, h5⟩ := h2
  have hw : ∀ n ∈ doc.nodes, Within 1 n := by
    intro n hn m hm
    rw [(h3 n hn).1] at hm; cases hm
  constructor
  · refine (c83_parse_rejects 64 tree 0 tree_guarded tree_proper dec h [] _ _ holder_proper _).2 fun doc' hdoc' v hv => ?_
    rw [hdoc] at hdoc'
    injection hdoc' with e; injection e with e; subst e
    obtain ⟨dec', h'⟩ := c83_exists (E := Unit) (S := Sp Nat) 64 tree 0 tree_guarded
    have hr := (root_around_settles 64 tree_guarded tree_proper h' [] _ _ holder_proper doc.nodes).back v hv ⟨[], ()⟩
    rw [root_like 64 [] _ (g := fun name => (unfolding tree 1 name).node 64) (decodedBy_unfold 64 tree_guarded h' (Nat.le_refl _)) doc.nodes hw, ← fill_content] at hr
    simp only [holder] at h5
    rw [hr] at h5
    cases h5
  · refine (c83_parse_vec_rejects 64 tree 0 tree_guarded tree_proper dec h me _).2 fun doc' hdoc' vs hv => ?_
    rw [hdoc] at hdoc'
    injection hdoc' with e; injection e with e; subst e
    generalize hns : doc.nodes = l at hv
    cases hv with
    | nil => rw [hns] at h4; cases h4
    | @cons n v ns vs hr _ =>
      have hn := h3 n (by rw [hns]; simp)
      have := (c72_accepts (E := Unit) 64 _ (proper_unfold tree_proper 1 me) () n v).2
        ((recursive_reads 64 tree_guarded tree_proper (K := 1) (Nat.le_refl _) me (hw n (by rw [hns]; simp)) v).2 hr)
      rw [this] at hn
      cases hn.2

/-- There is such a function, it is one, and it is tame. -/
example : ∃ dec : Str → NodeDecoder Unit Nat (FVal Leaf), DecodedBy 64 term dec ∧ (∀ n, Tame (dec me n)) ∧
    ∀ f, DecodedBy 64 term f → f = dec := by
  obtain ⟨dec, h⟩ := c83_exists (E := Unit) (S := Nat) 64 term 0 term_guarded
  exact ⟨dec, h, c83_tame 64 term 0 term_guarded dec h me, fun f hf => c83_only 64 term 0 term_guarded f dec hf h⟩

/-- The hypothesis of `c83_unguarded` is met by a node `a`. -/
example (dec : Str → NodeDecoder Unit Nat (FVal Leaf)) (h : DecodedBy 64 (fun _ => .enum [.nested ['a'] (.ref me)]) dec) (c v c') :
    dec me (nd 'a') c ≠ .ok v c' := c83_unguarded 64 _ me ['a'] [] rfl (nd 'a') (by decide) dec h c c' v

/-! Two types, each of which refers to itself and to the other. -/

/-- `enum Expr { N(#[knuffel(argument)] i64), S(Sum) }` (rank 1, since the node `s` is handed on to `Sum`) and
`struct Sum { #[knuffel(child)] l: Option<Sum>, #[knuffel(children)] es: Vec<Expr> }`. -/
def exprs (name : Str) : Decl :=
  if name = ['E'] then
    .enum [.tuple ['n'] (.mk [⟨.indexed 0, false, none, .int .i64⟩] none [] none [] .none), .nested ['s'] (.ref ['S'])]
  else .struct {} (.mk [] none [] none [.opt ['l'] (.type (.ref ['S']))] (.some (fld 'e') (.type (.ref ['E']))))

theorem exprs_grounded : Grounded exprs 1 := by
  refine ⟨fun name => if name = ['E'] then 1 else 0, fun name => ?_⟩
  dsimp only
  split
  · subst name
    refine ⟨Nat.le_refl _, ?_⟩
    simp only [exprs, ↓reduceIte, Decl.Guarded, refName, casesGuarded, Case.Guarded]
    exact ⟨trivial, by decide, trivial⟩
  · rename_i h
    refine ⟨Nat.zero_le _, ?_⟩
    simp only [exprs, if_neg h, Decl.Guarded]

/-- `s { l { n 1 }; s; n 2 }` is an `Expr`. -/
example (dec : Str → NodeDecoder Unit Nat (FVal Leaf)) (h : DecodedBy 64 exprs dec) :
    decodeNodeTop () (dec ['E']) (branch 's' [] [branch 'l' [] [nd 'n' [int ['1']]], nd 's', nd 'n' [int ['2']]]) =
      some (.ok (.variant ['s'] (.record [
        (fld 'l', .some (.record [(fld 'l', .none), (fld 'e', .list [.variant ['n'] (.record [(.indexed 0, .leaf (.int 1))])])])),
        (fld 'e', .list [.variant ['s'] (.record [(fld 'l', .none), (fld 'e', .list [])]),
          .variant ['n'] (.record [(.indexed 0, .leaf (.int 2))])])]))) := by
  unfold decodeNodeTop
  rw [c83_depth 64 exprs 1 exprs_grounded dec h 3 _ _ (by simp [Within, branch, nd, Node.childNodes, Node.children])]
  rfl

/-- `l { s { n } }`, with the argument missing, is not a `Sum`. -/
example (dec : Str → NodeDecoder Unit Nat (FVal Leaf)) (h : DecodedBy 64 exprs dec) :
    ∃ es, decodeNodeTop () (dec ['S']) (branch 'l' [] [branch 's' [] [nd 'n']]) = some (.error es) := by
  unfold decodeNodeTop
  rw [c83_depth 64 exprs 1 exprs_grounded dec h 3 _ _ (by simp [Within, branch, nd, Node.childNodes, Node.children])]
  exact ⟨_, rfl⟩

end Demo

end Knuffel
