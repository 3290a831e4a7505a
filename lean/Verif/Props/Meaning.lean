import Verif.Theory.Written
import Verif.Theory.Strict
/-!
# What a parsed document says

C06 (derivability), C12 (properties), C13 (arguments), C14 (children), and the
halves of C16 and C17 that speak about accepted texts.
-/

namespace Knuffel
open Cst

/-! ### C06 -/

/-- **C06.** If `parse_ast` returns a document then the text is derivable: it is
the text of a legal concrete syntax tree, and the document is the meaning of
that tree, every span included. -/
theorem c06_derivable (text : Str) (d : Document (Sp Nat)) (h : parseAst text = some (.ok d)) :
    ∃ b : BodyC, b.Ok false [] ∧ b.text = text ∧ d = ⟨b.value (byteSpan text) 0⟩ := by
  obtain ⟨b, h1, h2, h3⟩ := parse_sound h
  exact ⟨b, h1, h2, by cases d; simp_all⟩

/-- The converse: the text of every legal tree is accepted, with the meaning of
the tree.  (Here block comments are read strictly: inside a comment, `/*` opens a
nested one.) -/
theorem c06_accepted (text : Str) (b : BodyC) (hok : b.Ok true []) (ht : b.text = text) :
    parseAst text = some (.ok ⟨b.value (byteSpan text) 0⟩) := parse_complete b hok ht

/-- **C06**, for line spans. -/
theorem c06_derivable_line (width : Char → Nat) (strWidth : Str → Nat) (text : Str) (d : Document (Sp LinePos))
    (h : parseAstLine width strWidth text = some (.ok d)) :
    ∃ b : BodyC, b.Ok false [] ∧ b.text = text ∧ d.nodes = b.value (trackSpan width text) 0 := parse_sound_line h

/-- **C06**, exactly: for a text in which `/*/` does not occur, `parse_ast` returns the document
`d` if and only if the text is that of a legal tree which means `d`. -/
theorem c06_exact (text : Str) (ht : NoTie text) (d : Document (Sp Nat)) :
    parseAst text = some (.ok d) ↔
      ∃ b : BodyC, b.Ok true [] ∧ b.text = text ∧ d = ⟨b.value (byteSpan text) 0⟩ := by
  constructor
  · intro h
    obtain ⟨b, h1, h2, h3⟩ := c06_derivable text d h
    exact ⟨b, BodyC.Ok.strict b h1 (by rw [h2]; exact ht), h2, h3⟩
  · rintro ⟨b, h1, h2, rfl⟩
    exact c06_accepted text b h1 h2

/-- **C06**: a text has one meaning.  Two legal trees with the same characters mean the same
document, every span included. -/
theorem c06_unambiguous (b b' : BodyC) (h : b.Ok true []) (h' : b'.Ok true []) (ht : b.text = b'.text) :
    b.value (byteSpan b.text) 0 = b'.value (byteSpan b'.text) 0 := by
  have h1 := c06_accepted b.text b h rfl
  rw [c06_accepted b.text b' h' ht.symm] at h1
  simp only [Option.some.injEq, Except.ok.injEq, Document.mk.injEq] at h1
  rw [← h1, ht]

/-- `n /* {*/ 1` does not contain `/*/`, and is the text of a legal tree. -/
def c06Demo : BodyC :=
  .cons [] none (.mk none (.bare ['n'])
    [⟨[.ws (.char ' '), .ws (.block (.char ' ' (.char '{' .nil))), .ws (.char ' ')], none,
      .arg ⟨none, .num (.dec none '1' [] none none)⟩⟩] .none [] .eof) (.nil [])

example : NoTie c06Demo.text ∧ c06Demo.Ok true [] := by
  constructor
  · unfold NoTie; decide +kernel
  · refine ⟨trivial, trivial, ⟨trivial, ⟨Or.inr (Or.inr (isIdSansDig_iff.1 (by decide))), by decide⟩, ?_, ?_, ?_, trivial, trivial, rfl⟩, trivial⟩
    · simp [NameStartOk]
    · simp [NameEndOk, itemsText, Item.text, spacesText, Space.text, Ws.text]
    · refine ⟨⟨by simp, ?_, trivial, trivial, ⟨Or.inl rfl, by decide, by simp [DigitsOk], by simp, by simp⟩⟩, trivial⟩
      simp [SpacesOk, Space.Ok, Ws.Ok, Block.Ok, wsChars]

/-- The same text is accepted by both parsers, as `c06_derivable` and `c06_derivable_line` require. -/
example : (∃ d, parseAst c06Demo.text = some (.ok d)) ∧ ∃ d, parseAstLine (fun _ => 1) List.length c06Demo.text = some (.ok d) := by
  have accepted : ∀ {O : Type} (r : Option (Except (List (PErr O)) (Document (Sp O)))),
      (match r with | some (.ok _) => true | _ => false) = true → ∃ d, r = some (.ok d) := by
    intro O r h
    split at h
    · exact ⟨_, rfl⟩
    · cases h
  exact ⟨accepted _ (by decide +kernel), accepted _ (by decide +kernel)⟩

/-! ### Node by node -/

/-- For the examples: run the parser and check the result. -/
theorem of_parse {text : Str} (P : Document (Sp Nat) → Bool)
    (h : (match parseAst text with | some (.ok d) => P d | _ => false) = true) :
    ∃ d, parseAst text = some (.ok d) ∧ P d = true := by
  split at h
  · exact ⟨_, ‹_›, h⟩
  · simp at h

/-- Every node of the document, paired with the tree it was written as, satisfies
`R` (spans are forgotten). -/
def EachNode (text : Str) (d : Document (Sp Nat)) (R : NodeC → Node Unit → Prop) : Prop :=
  ∃ b : BodyC, b.Ok false [] ∧ b.text = text ∧ b.live.length = d.erase.allNodes.length ∧
    ∀ (i : Nat) n m, b.live[i]? = some n → d.erase.allNodes[i]? = some m → R n m

theorem eachNode {text : Str} {d : Document (Sp Nat)} (h : parseAst text = some (.ok d)) {R : NodeC → Node Unit → Prop}
    (hR : ∀ n, R n n.meaning) : EachNode text d R := by
  obtain ⟨b, h1, h2, h3⟩ := parse_sound h
  have he : d.erase = b.meaning := by
    cases d with
    | mk ns => simp only at h3; rw [h3]; exact meaning_of_value h1
  refine ⟨b, h1, h2, ?_, ?_⟩
  · rw [he, meaning_allNodes, List.length_map]
  · intro i n m hn hm
    rw [he, meaning_allNodes, List.getElem?_map, hn] at hm
    simp only [Option.map_some, Option.some.injEq] at hm
    rw [← hm]
    exact hR n

/-! ### C12 -/

/-- `m` is the map with the last value written for each key: its keys increase
strictly, and looking up a key gives what was written last for it. -/
def IsPropMap (written : List (Str × Value Unit)) (m : List (Spanned Str Unit × Value Unit)) : Prop :=
  (m.map (·.1.value)).Pairwise (· < ·) ∧
  ∀ k, (m.map (fun kv => (kv.1.value, kv.2))).lookup k = written.reverse.lookup k

theorem lookup_eq_entryOf (k : Str) (m : List (Spanned Str Unit × Value Unit)) :
    (m.map (fun kv => (kv.1.value, kv.2))).lookup k = (entryOf k m).map (·.2) := by
  unfold entryOf
  induction m with
  | nil => rfl
  | cons x m ih =>
    simp only [List.map_cons, List.lookup_cons, List.find?_cons]
    by_cases h : x.1.value = k
    · simp [h]
    · have h1 : (x.1.value == k) = false := beq_eq_false_iff_ne.2 h
      have h2 : (k == x.1.value) = false := beq_eq_false_iff_ne.2 (Ne.symm h)
      simp only [h1, h2, ih]

theorem isPropMap_propMap (w : List (Str × Value Unit)) :
    IsPropMap w (propMap (w.map (fun kv => (⟨(), kv.1⟩, kv.2)))) := by
  refine ⟨propMap_sorted _, ?_⟩
  intro k
  have h0 : w.reverse.lookup k = (entryOf k (w.map (fun kv => ((⟨(), kv.1⟩ : Spanned Str Unit), kv.2))).reverse).map (·.2) := by
    rw [← lookup_eq_entryOf, List.map_reverse, List.map_map]
    congr 1
    congr 1
    exact (List.map_id w).symm
  rw [lookup_eq_entryOf, propMap_entry, h0]
  have hiff : ∀ l : List (Spanned Str Unit × Value Unit), (entryOf k l).isSome = (entryOf k l.reverse).isSome := by
    intro l
    unfold entryOf
    rw [Bool.eq_iff_iff, List.find?_isSome, List.find?_isSome]
    simp
  have := hiff (w.map (fun kv => (⟨(), kv.1⟩, kv.2)))
  cases h1 : entryOf k (w.map (fun kv => ((⟨(), kv.1⟩ : Spanned Str Unit), kv.2))) with
  | none =>
    cases h2 : entryOf k (w.map (fun kv => ((⟨(), kv.1⟩ : Spanned Str Unit), kv.2))).reverse with
    | none => rfl
    | some _ => rw [h1, h2] at this; simp at this
  | some _ =>
    cases h2 : entryOf k (w.map (fun kv => ((⟨(), kv.1⟩ : Spanned Str Unit), kv.2))).reverse with
    | none => simp [h1, h2] at this
    | some _ => rfl

/-- **C12.** In every node of a parsed document the properties are, for the
properties written on that node and not commented out, the map with the last
value of each key, each key once, in increasing order. -/
theorem c12_properties (text : Str) (d : Document (Sp Nat)) (h : parseAst text = some (.ok d)) :
    EachNode text d (fun n m =>
      IsPropMap ((writtenProps n.items).map (fun kv => (kv.1.value, kv.2.meaning))) m.properties) := by
  refine eachNode h fun n => ?_
  have := isPropMap_propMap ((writtenProps n.items).map (fun kv => (kv.1.value, kv.2.meaning)))
  rw [List.map_map] at this
  rw [node_meaning n]
  exact this

/-- There is only one such map. -/
theorem c12_unique {w : List (Str × Value Unit)} {m m' : List (Spanned Str Unit × Value Unit)}
    (h : IsPropMap w m) (h' : IsPropMap w m') : m = m' := by
  obtain ⟨s, hl⟩ := h
  obtain ⟨s', hl'⟩ := h'
  have hl2 : ∀ k, entryOf k m = entryOf k m' := by
    intro k
    have := (hl k).trans (hl' k).symm
    rw [lookup_eq_entryOf, lookup_eq_entryOf] at this
    have key : ∀ l : List (Spanned Str Unit × Value Unit), ∀ e, entryOf k l = some e → e.1 = ⟨(), k⟩ := by
      intro l e he
      have := List.find?_some he
      obtain ⟨⟨_, v⟩, _⟩ := e
      simpa using this
    cases h1 : entryOf k m with
    | none => cases h2 : entryOf k m' with
      | none => rfl
      | some _ => rw [h1, h2] at this; simp at this
    | some e => cases h2 : entryOf k m' with
      | none => rw [h1, h2] at this; simp at this
      | some e' =>
        rw [h1, h2] at this
        simp only [Option.map_some, Option.some.injEq] at this
        rw [Option.some.injEq]
        exact Prod.ext ((key m e h1).trans (key m' e' h2).symm) this
  clear hl hl'
  have mem : ∀ (l : List (Spanned Str Unit × Value Unit)) (x : Str), x ∈ l.map (·.1.value) ↔ (entryOf x l).isSome := by
    intro l x
    unfold entryOf
    rw [List.find?_isSome]
    simp only [List.mem_map, beq_iff_eq]
  induction m generalizing m' with
  | nil =>
    cases m' with
    | nil => rfl
    | cons e m' =>
      have := hl2 e.1.value
      simp [entryOf] at this
  | cons e m ih =>
    cases m' with
    | nil =>
      have := hl2 e.1.value
      simp [entryOf] at this
    | cons e' m' =>
      simp only [List.map_cons, List.pairwise_cons] at s s'
      have hk : e.1.value = e'.1.value := by
        rcases strLt_total e.1.value e'.1.value with hh | hh | hh
        · have h1 : e.1.value ∈ (e' :: m').map (·.1.value) := by
            rw [mem, ← hl2, ← mem]; simp
          simp only [List.map_cons, List.mem_cons] at h1
          rcases h1 with h1 | h1
          · exact h1
          · have := strLt_trans ((strLt_iff _ _).2 (s'.1 _ h1)) hh
            rw [strLt_irrefl] at this; simp at this
        · exact hh
        · have h1 : e'.1.value ∈ (e :: m).map (·.1.value) := by
            rw [mem, hl2, ← mem]; simp
          simp only [List.map_cons, List.mem_cons] at h1
          rcases h1 with h1 | h1
          · exact h1.symm
          · have := strLt_trans ((strLt_iff _ _).2 (s.1 _ h1)) hh
            rw [strLt_irrefl] at this; simp at this
      have he : e = e' := by
        have := hl2 e.1.value
        simp only [entryOf, List.find?_cons, beq_self_eq_true, hk, Option.some.injEq] at this
        exact this
      subst he
      rw [ih s.2 s'.2]
      intro k
      by_cases hkk : k = e.1.value
      · have n1 : k ∉ m.map (·.1.value) := by
          intro hm
          have := (strLt_iff _ _).2 (s.1 k hm)
          rw [hkk, strLt_irrefl] at this; simp at this
        have n2 : k ∉ m'.map (·.1.value) := by
          intro hm
          have := (strLt_iff _ _).2 (s'.1 k hm)
          rw [hkk, strLt_irrefl] at this; simp at this
        rw [entryOf_none n1, entryOf_none n2]
      · have := hl2 k
        have hb : (e.1.value == k) = false := beq_eq_false_iff_ne.2 (Ne.symm hkk)
        simpa only [entryOf, List.find?_cons, hb] using this

/-- A node with a repeated key and a commented-out property. -/
example : ∃ d, parseAst "n b=1 a=2 b=3 /-a=4".toList = some (.ok d) ∧
    d.nodes.flatMap (fun n => n.value.properties.map (fun kv => (kv.1.value, kv.2.literal.value))) =
      [("a".toList, .int .dec "2".toList), ("b".toList, .int .dec "3".toList)] := by
  obtain ⟨d, h, hd⟩ := of_parse (text := "n b=1 a=2 b=3 /-a=4".toList) (fun d => decide (d.nodes.flatMap (fun n => n.value.properties.map (fun kv => (kv.1.value, kv.2.literal.value))) =
      [("a".toList, .int .dec "2".toList), ("b".toList, .int .dec "3".toList)])) (by decide +kernel)
  exact ⟨d, h, of_decide_eq_true hd⟩

/-! ### C13 -/

/-- **C13.** The arguments of every node are the arguments written on it and not
commented out, in order, whatever properties are between them. -/
theorem c13_arguments (text : Str) (d : Document (Sp Nat)) (h : parseAst text = some (.ok d)) :
    EachNode text d (fun n m => m.arguments = (writtenArgs n.items).map Val.meaning) := by
  refine eachNode h fun n => ?_
  rw [node_meaning n]
  rfl

/-- **C13.** The properties do not depend on the arguments: nodes on which the
same properties are written (in the same order) have the same property map. -/
theorem c13_independent (n n' : NodeC)
    (h : (writtenProps n.items).map (fun kv => (kv.1.value, kv.2.meaning)) =
      (writtenProps n'.items).map (fun kv => (kv.1.value, kv.2.meaning))) :
    n.meaning.properties = n'.meaning.properties := by
  rw [node_meaning n, node_meaning n']
  show propMap _ = propMap _
  have e : ∀ l : List (PropName × Val), l.map (fun kv => ((⟨(), kv.1.value⟩ : Spanned Str Unit), kv.2.meaning)) =
      (l.map (fun kv => (kv.1.value, kv.2.meaning))).map (fun kv => (⟨(), kv.1⟩, kv.2)) := by
    intro l; rw [List.map_map]; rfl
  rw [e, e, h]

/-- Arguments between properties. -/
example : ∃ d, parseAst "n 1 a=2 true /-3 \"x\"".toList = some (.ok d) ∧
    d.nodes.flatMap (fun n => n.value.arguments.map (fun v => v.literal.value)) =
      [.int .dec "1".toList, .bool true, .string "x".toList] := by
  obtain ⟨d, h, hd⟩ := of_parse (text := "n 1 a=2 true /-3 \"x\"".toList) (fun d => decide (d.nodes.flatMap (fun n => n.value.arguments.map (fun v => v.literal.value)) =
      [.int .dec "1".toList, .bool true, .string "x".toList])) (by decide +kernel)
  exact ⟨d, h, of_decide_eq_true hd⟩

/-! ### C14 -/

/-- **C14.** A node written with braces that are not commented out has a children
block, with the nodes in the braces in order; a node without braces, or with a
commented-out block, has none. -/
theorem c14_children (text : Str) (d : Document (Sp Nat)) (h : parseAst text = some (.ok d)) :
    EachNode text d (fun n m =>
      m.children.map (fun c => c.value.map (·.value)) = n.children.written.map (fun l => l.map NodeC.meaning)) := by
  refine eachNode h fun n => ?_
  rw [node_meaning n]
  show Option.map _ (Option.map _ _) = _
  cases n.children.written with
  | none => rfl
  | some l => simp

/-- The three cases. -/
example : ∃ d, parseAst "a { b; c {}; }\nd /-{ e; }\nf".toList = some (.ok d) ∧
    d.nodes.map (fun n => n.value.children.map (fun c => c.value.map (fun m => m.value.nodeName.value))) =
      [some ["b".toList, "c".toList], none, none] := by
  obtain ⟨d, h, hd⟩ := of_parse (text := "a { b; c {}; }\nd /-{ e; }\nf".toList) (fun d => decide (d.nodes.map (fun n => n.value.children.map (fun c => c.value.map (fun m => m.value.nodeName.value))) =
      [some ["b".toList, "c".toList], none, none])) (by decide +kernel)
  exact ⟨d, h, of_decide_eq_true hd⟩

/-! ### C16 and C17: accepted texts -/

/-- **C16, C17.** Every part of an accepted document was written, at its span, as
what it should be: an argument or property value as a string, number or keyword
literal; a name as a bare identifier or a string; a type in parentheses. -/
theorem c16_c17_written (text : Str) (d : Document (Sp Nat)) (h : parseAst text = some (.ok d)) :
    d.Written text := by
  obtain ⟨b, h1, h2, h3⟩ := parse_sound h
  unfold Document.Written
  rw [h3]
  exact written_body (u := []) (w := []) b (by simp [h2]) h1 rfl

theorem identShape_no_quote {s : Str} (h : IdentShape s) : '"' ∉ s := by
  have hst : ¬ IdentStart '"' := by
    rintro ⟨⟨_, h, _⟩ | h, _⟩
    · exact h (by decide)
    · exact absurd h (by decide)
  have hch : ¬ IdentChar '"' := fun h => h.2.1 (by decide)
  match s with
  | [c] =>
    simp only [IdentShape] at h
    rw [List.mem_singleton]
    rintro rfl
    rcases h with h | h | h
    · exact absurd h (by decide)
    · exact absurd h (by decide)
    · exact hst h
  | c :: d :: rest =>
    obtain ⟨h1, h2⟩ := h
    simp only [List.mem_cons, not_or]
    refine ⟨?_, ?_, fun h => hch (h2 _ h)⟩
    · rintro rfl
      rcases h1 with ⟨h | h, _⟩ | ⟨_, _, h, _⟩
      · exact absurd h (by decide)
      · exact absurd h (by decide)
      · exact hst h
    · rintro rfl
      rcases h1 with ⟨_, h⟩ | ⟨_, _, _, h⟩
      · exact hst h
      · exact hch h

theorem identShape_no_number {s : Str} {sg : Option Char} {d : Char} {rest : Str} (h : IdentShape s) (hs : SignOk sg)
    (hd : d ∈ decDigits) (he : s = sg.toList ++ d :: rest) : False := by
  have hst : ¬ IdentStart d := fun h => h.2 hd
  have hp : d ≠ '+' ∧ d ≠ '-' := by
    constructor <;> (rintro rfl; exact absurd hd (by decide))
  have base : ∀ rest, ¬ IdentShape (d :: rest) := by
    intro rest h
    cases rest with
    | nil => rcases h with h | h | h
             · exact hp.1 h
             · exact hp.2 h
             · exact hst h
    | cons x rest =>
      rcases h.1 with ⟨h | h, _⟩ | ⟨_, _, h, _⟩
      · exact hp.1 h
      · exact hp.2 h
      · exact hst h
  subst he
  rcases hs with rfl | rfl | rfl
  · exact base _ h
  · rcases h.1 with ⟨_, h⟩ | ⟨h, _⟩
    · exact hst h
    · exact h rfl
  · rcases h.1 with ⟨_, h⟩ | ⟨_, h, _⟩
    · exact hst h
    · exact h rfl

theorem number_not_ident (n : Num) (hn : n.Ok) : ¬ IdentShape n.text := by
  intro h
  cases n with
  | dec s d ds fr ex =>
    exact identShape_no_number (rest := ds ++ fracText fr ++ expText ex) h hn.1 hn.2.1 (by simp [Num.text])
  | radix s r d ds =>
    exact identShape_no_number (rest := radixMark r :: d :: ds) (d := '0') h hn.1 (by decide) (by simp [Num.text])

theorem number_no_quote (n : Num) (hn : n.Ok) : '"' ∉ n.text := by
  have hsg : ∀ sg, SignOk sg → '"' ∉ sg.toList := by
    rintro sg (rfl | rfl | rfl) <;> decide
  have hds : ∀ r ds, DigitsOk r ds → '"' ∉ ds := by
    intro r ds h hq
    rcases h _ hq with h | h
    · cases r <;> exact absurd h (by decide)
    · exact absurd h (by decide)
  cases n with
  | dec s d ds fr ex =>
    obtain ⟨h1, h2, h3, h4, h5⟩ := hn
    simp only [Num.text, List.mem_append, List.mem_cons, not_or]
    refine ⟨⟨⟨hsg s h1, ?_, hds _ _ h3⟩, ?_⟩, ?_⟩
    · rintro rfl; exact absurd h2 (by decide)
    · cases fr with
      | none => simp [fracText]
      | some x =>
        obtain ⟨g1, g2⟩ := h4 x.1 x.2 rfl
        simp only [fracText, List.mem_cons, not_or]
        exact ⟨by decide, (by intro hx; rw [← hx] at g1; exact absurd g1 (by decide)), hds _ _ g2⟩
    · cases ex with
      | none => simp [expText]
      | some x =>
        obtain ⟨g1, g2, g3⟩ := h5 x.1 x.2.1 x.2.2 rfl
        simp only [expText, List.cons_append, List.mem_cons, List.mem_append, not_or]
        refine ⟨?_, hsg _ g2, hds _ _ g3⟩
        rcases g1 with g1 | g1 <;> rw [g1] <;> decide
  | radix s r d ds =>
    obtain ⟨h1, h2, h3, h4⟩ := hn
    simp only [Num.text, List.mem_append, List.mem_cons, not_or]
    refine ⟨hsg s h1, by decide, ?_, ?_, hds _ _ h4⟩
    · cases r <;> decide
    · rintro rfl; cases r <;> exact absurd h3 (by decide)

/-- **C16.** No literal is a bare identifier: so, by `c16_c17_written`, no argument
of an accepted document was written as a bare identifier. -/
theorem c16_literal_not_bare (l : Lit) (hl : l.Ok) : ¬ BareIdent l.text := by
  rintro ⟨h1, h2⟩
  cases l with
  | null => exact h2 (by decide)
  | bool b => cases b <;> exact h2 (by decide)
  | str s =>
    refine identShape_no_quote h1 ?_
    cases s <;> simp [Lit.text, StrLit.text, quotedText, rawClose]
  | num n => exact number_not_ident n hl h1

example : ¬ BareIdent "-0x1f".toList :=
  c16_literal_not_bare (.num (.radix (some '-') .hex '1' ['f']))
    ⟨Or.inr (Or.inr rfl), by decide, by decide, by intro c hc; revert c; decide⟩

/-- **C17.** No name is a number or a keyword: so, by `c16_c17_written`, no node
name or type name of an accepted document was written as a number or a keyword.
-/
theorem c17_name_not_literal (n : Name) (hn : n.Ok) :
    (¬ ∃ m : Num, m.Ok ∧ m.text = n.text) ∧ n.text ∉ keywords := by
  cases n with
  | bare s => exact ⟨fun ⟨m, hm, he⟩ => number_not_ident m hm (he ▸ hn.1), hn.2⟩
  | quoted l =>
    constructor
    · rintro ⟨m, hm, he⟩
      exact number_no_quote m hm (by rw [he]; simp [Name.text, quotedText])
    · intro h
      have : '"' ∈ (Name.quoted l).text := by simp [Name.text, quotedText]
      simp only [keywords, List.mem_cons, List.not_mem_nil, or_false] at h
      rcases h with h | h | h <;> rw [h] at this <;> exact absurd this (by decide)

example : (¬ ∃ m : Num, m.Ok ∧ m.text = "-x".toList) ∧ "-x".toList ∉ keywords :=
  c17_name_not_literal (.bare "-x".toList) ⟨⟨Or.inl ⟨Or.inr rfl, isIdSansDig_iff.1 (by decide)⟩, by simp⟩, by decide⟩

/-- **C17**, for property names. -/
theorem c17_key_not_literal (n : PropName) (hn : n.Ok) :
    (¬ ∃ m : Num, m.Ok ∧ m.text = n.text) ∧ n.text ∉ keywords := by
  cases n with
  | bare s => exact ⟨fun ⟨m, hm, he⟩ => number_not_ident m hm (he ▸ hn.1.1), hn.1.2⟩
  | str s =>
    have hq : '"' ∈ (PropName.str s).text := by
      cases s <;> simp [PropName.text, StrLit.text, quotedText, rawClose]
    constructor
    · rintro ⟨m, hm, he⟩
      rw [← he] at hq
      refine number_no_quote m hm hq
    · intro h
      simp only [keywords, List.mem_cons, List.not_mem_nil, or_false] at h
      rcases h with h | h | h <;> rw [h] at hq <;> exact absurd hq (by decide)

example : (¬ ∃ m : Num, m.Ok ∧ m.text = "r\"1\"".toList) ∧ "r\"1\"".toList ∉ keywords :=
  c17_key_not_literal (.str (.raw 0 ['1'])) (by simp only [PropName.Ok, StrLit.Ok]; decide)

end Knuffel
