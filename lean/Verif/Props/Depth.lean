import Verif.Theory.Depth
import Verif.Theory.Meaning
import Verif.Props.Meaning
/-!
# C84: the recursion of the parser is as deep as the braces are nested

`parseAstTo k` is `parse_ast` in which at most `k` calls of the parser of nodes are inside one another (the outermost
one is counted); `none` is that more would be needed.  `BodyC.depth` is the number of blocks inside one another.
-/

namespace Knuffel

open Cst

theorem runParser_congr {O α : Type} {p q : P O α} {eoi : Sp O} {s} (h : p eoi s = q eoi s) :
    runParser p eoi s = runParser q eoi s := by
  unfold runParser; rw [h]

theorem runParser_panic {O α : Type} {p : P O α} {eoi : Sp O} {s} (h : (p eoi s).panicked = true) :
    runParser p eoi s = none := by
  unfold runParser; simp [h]

/-- **C84.** For a legal text, the calls inside one another are exactly one more than the blocks inside one another: with
room for so many the result is that of the parser, with less the room is exceeded. -/
theorem c84_exact (b : BodyC) (hb : b.Ok true []) (k : Nat) :
    parseAstTo k b.text = if b.depth + 1 ≤ k then parseAst b.text else none := by
  have h := documentTo_tree (k := k) (eoi := offsetEoi b.text) (s := offsetToks 0 b.text) b hb
    (by rw [chars_offsetToks])
  split
  · exact runParser_congr (h.1 (by omega))
  · exact runParser_panic (h.2 (by omega))

/-- **C84**, for line spans. -/
theorem c84_exact_line (width : Char → Nat) (strWidth : Str → Nat) (b : BodyC) (hb : b.Ok true []) (k : Nat) :
    parseAstLineTo k width strWidth b.text =
      if b.depth + 1 ≤ k then parseAstLine width strWidth b.text else none := by
  have h := documentTo_tree (k := k) (eoi := lineEoi strWidth b.text) (s := lineToks width .init b.text) b hb
    (by rw [chars_lineToks])
  split
  · exact runParser_congr (h.1 (by omega))
  · exact runParser_panic (h.2 (by omega))

/-- **C84.** For any text, legal or not: with room for more calls than there are `{` in the text, the result is that of
the parser, errors included. -/
theorem c84_any (text : Str) (k : Nat) (h : text.count '{' < k) : parseAstTo k text = parseAst text :=
  runParser_congr (documentTo_braces (by rw [chars_offsetToks]; exact h))

/-- **C84**, for line spans. -/
theorem c84_any_line (width : Char → Nat) (strWidth : Str → Nat) (text : Str) (k : Nat) (h : text.count '{' < k) :
    parseAstLineTo k width strWidth text = parseAstLine width strWidth text :=
  runParser_congr (documentTo_braces (by rw [chars_lineToks]; exact h))

/-- **C84.** A limit on the calls is exceeded or makes no difference: there is no text that is read in another way. -/
theorem c84_limit (text : Str) (k : Nat) : parseAstTo k text = none ∨ parseAstTo k text = parseAst text := by
  rcases documentTo_or (eoi := offsetEoi text) k (offsetToks 0 text) with h | h
  · exact Or.inl (runParser_panic h)
  · exact Or.inr (runParser_congr h)

/-- **C84**, for line spans. -/
theorem c84_limit_line (width : Char → Nat) (strWidth : Str → Nat) (text : Str) (k : Nat) :
    parseAstLineTo k width strWidth text = none ∨
      parseAstLineTo k width strWidth text = parseAstLine width strWidth text := by
  rcases documentTo_or (eoi := lineEoi strWidth text) k (lineToks width .init text) with h | h
  · exact Or.inl (runParser_panic h)
  · exact Or.inr (runParser_congr h)

/-- For the examples: a node with blocks inside one another, `a{a{};};` for two. -/
def nest : Nat → BodyC
  | 0 => .nil []
  | n + 1 => .cons [] none (.mk none (.bare ['a']) [] (.some [] none (nest n)) [] .semicolon) (.nil [])

theorem nest_depth : ∀ n, (nest n).depth = n
  | 0 => rfl
  | n + 1 => by simp [nest, BodyC.depth, NodeC.depth, ChildrenC.depth, nest_depth n]

theorem nest_text_succ (n : Nat) : (nest (n + 1)).text = 'a' :: '{' :: ((nest n).text ++ ['}', ';']) := by
  simp [nest, BodyC.text, NodeC.text, ChildrenC.text, dashText, tyText, Name.text, itemsText, spacesText, linesText,
    Term.text]

theorem nest_length : ∀ n, (nest n).text.length = 4 * n
  | 0 => rfl
  | n + 1 => by rw [nest_text_succ]; simp [nest_length n]; omega

theorem nest_ok : ∀ (n : Nat) (f : Str), (nest n).Ok true f
  | 0, f => trivial
  | n + 1, f => by
    refine ⟨trivial, trivial, ⟨trivial, ⟨Or.inr (Or.inr (isIdSansDig_iff.1 (by decide))), by decide⟩, ?_, ?_, trivial,
      ⟨trivial, trivial, nest_ok n _⟩, trivial, trivial⟩, trivial⟩
    · simp [NameStartOk]
    · simp [NameEndOk, ChildrenC.text, itemsText, spacesText, dashText]

/-- **C84.** There is no limit that is enough for all texts: for each there is a text of four times as many characters
that the parser reads and that exceeds the limit. -/
theorem c84_unlimited (k : Nat) :
    ∃ text : Str, text.length = 4 * k ∧ (∃ d, parseAst text = some (.ok d)) ∧ parseAstTo k text = none := by
  refine ⟨(nest k).text, nest_length k, ?_, ?_⟩
  · exact ⟨_, c06_accepted _ (nest k) (nest_ok k []) rfl⟩
  · rw [c84_exact _ (nest_ok k []), nest_depth, if_neg (by omega)]

/-- For `c84_exact`, `c84_exact_line`: `a{a{a{};};};` is legal, and has three blocks inside one another. -/
example : (nest 3).Ok true [] ∧ (nest 3).depth = 3 ∧ (nest 3).text = "a{a{a{};};};".toList :=
  ⟨nest_ok 3 [], nest_depth 3, by rw [nest_text_succ, nest_text_succ, nest_text_succ]; rfl⟩

/-- For `c84_any`, `c84_any_line`: a text with an error, with one brace. -/
example : ("a {".toList).count '{' < 2 ∧ ∃ es, parseAst "a {".toList = some (.error es) := by
  refine ⟨by decide +kernel, ?_⟩
  have h : (match parseAst "a {".toList with | some (.error _) => true | _ => false) = true := by decide +kernel
  split at h
  · exact ⟨_, ‹_›⟩
  · cases h

/-- For `c84_limit`, `c84_limit_line`: both cases occur, also for texts with errors. -/
example : parseAstTo 1 "a {".toList = none ∧ parseAstTo 2 "a {".toList ≠ none := by
  constructor
  · have h : (parseAstTo 1 "a {".toList).isNone = true := by decide +kernel
    simpa using h
  · have h : (parseAstTo 2 "a {".toList).isSome = true := by decide +kernel
    intro hc; rw [hc] at h; cases h

/-! ### Block comments -/

/-- **C84.** At a legal block comment, whatever follows it, the calls of the parser of block comments that are inside one
another are exactly two more than the comments inside one another in it: one for the comment itself, and one because a
comment is tried also where there is none. -/
theorem c84_comment {O : Type} [Offset O] (b : Block) (hb : b.Ok true) (eoi : Sp O) (s : List (Tok O)) (follow : Str)
    (hs : s.map (·.1) = '/' :: '*' :: (b.text ++ '*' :: '/' :: follow)) (k : Nat) :
    (b.depth + 2 ≤ k → mlCommentTo k eoi s = mlComment eoi s) ∧
    (k < b.depth + 2 → (mlCommentTo k eoi s).panicked = true) := by
  obtain ⟨t, hT, _⟩ := takes_of_chars (s := s) (a := (Ws.block b).text) (b := follow) (by
    show s.map (·.1) = _
    rw [hs]; simp [Ws.text])
  have h := mlCommentTo_tree (eoi := eoi) (k := k) b hb hT
  exact ⟨fun hk => h.1 (by omega), fun hk => h.2 (by omega)⟩

/-- **C84.** At any place, with room for more calls than there are `/*` in the rest of the text, the result is that of the
parser of block comments. -/
theorem c84_comment_any {O : Type} [Offset O] (eoi : Sp O) (s : List (Tok O)) (k : Nat)
    (h : slashStars (s.map (·.1)) < k) : mlCommentTo k eoi s = mlComment eoi s :=
  mlCommentTo_slashStars h

/-- **C84.** At any place, a limit on the calls is exceeded or makes no difference. -/
theorem c84_comment_limit {O : Type} [Offset O] (eoi : Sp O) (s : List (Tok O)) (k : Nat) :
    (mlCommentTo k eoi s).panicked = true ∨ mlCommentTo k eoi s = mlComment eoi s :=
  mlCommentTo_or k s

/-- For `c84_comment`: a comment in a comment, `/*a/**/*/`, and text behind it. -/
example : (Block.char 'a' (.nested .nil .nil)).Ok true ∧ (Block.char 'a' (.nested .nil .nil)).depth = 1 ∧
    (offsetToks 0 "/*a/**/*/ b".toList).map (·.1) =
      '/' :: '*' :: ((Block.char 'a' (.nested .nil .nil)).text ++ '*' :: '/' :: " b".toList) := by
  refine ⟨by simp [Block.Ok], rfl, ?_⟩
  decide +kernel

/-- For `c84_comment_any`: the same text with room for four calls (where `*/` is behind `/` there is also a `/*`). -/
example : slashStars ((offsetToks 0 "/*a/**/*/ b".toList).map (·.1)) < 4 := by decide +kernel

/-- For `c84_comment_limit`: both cases occur. -/
example : (mlCommentTo 2 (offsetEoi "/*a/**/*/ b".toList) (offsetToks 0 "/*a/**/*/ b".toList)).panicked = true ∧
    (mlCommentTo 3 (offsetEoi "/*a/**/*/ b".toList) (offsetToks 0 "/*a/**/*/ b".toList)).panicked = false := by
  constructor <;> decide +kernel

end Knuffel
