import Verif.Spec.Cst
/-!
# Specification: unfinished texts

The beginning of a legal text, up to a place where something is still to come.
Used to say which texts must be rejected.  Nothing here models code.
-/

namespace Knuffel.Cst

/-- The beginning of a legal text. -/
inductive Open where
  /-- Space between nodes; a node is expected. -/
  | node (lines : List Line) (dash : Option (List Space))
  /-- The beginning of a node; after the entries `items` and more space an entry
  is expected.  Of that entry a property name (with its `=`) and the type of the
  value may be there already. -/
  | entry (lines : List Line) (dash : Option (List Space)) (ty : Option Name) (name : Name) (items : List Item)
      (space : List Space) (dash' : Option (List Space)) (key : Option PropName) (vty : Option Name)
  /-- The beginning of a node and of its children block. -/
  | inside (lines : List Line) (dash : Option (List Space)) (ty : Option Name) (name : Name) (items : List Item)
      (space : List Space) (dash' : Option (List Space)) (inner : Open)
  /-- A complete node, and the beginning of what follows. -/
  | after (lines : List Line) (dash : Option (List Space)) (nd : NodeC) (rest : Open)

/-- Characters of an optional property name and the equals sign. -/
def keyText : Option PropName → Str
  | none => []
  | some k => k.text ++ ['=']

/-- Its characters. -/
def Open.text : Open → Str
  | .node lines dash => linesText lines ++ dashText dash
  | .entry lines dash ty name items space dash' key vty =>
    linesText lines ++ dashText dash ++ tyText ty ++ name.text ++ itemsText items ++ spacesText space ++ dashText dash' ++
      keyText key ++ tyText vty
  | .inside lines dash ty name items space dash' inner =>
    linesText lines ++ dashText dash ++ tyText ty ++ name.text ++ itemsText items ++ spacesText space ++ dashText dash' ++
      '{' :: inner.text
  | .after lines dash nd rest => linesText lines ++ dashText dash ++ nd.text ++ rest.text

/-- Legality, if the text `w` follows. -/
def Open.Ok (w : Str) : Open → Prop
  | .node lines dash => LinesOk true (dashText dash ++ w) lines ∧ DashOk true w dash
  | .entry lines dash ty name items space dash' key vty =>
    let w1 := keyText key ++ tyText vty ++ w
    let w2 := spacesText space ++ dashText dash' ++ w1
    let w3 := tyText ty ++ name.text ++ itemsText items ++ w2
    LinesOk true (dashText dash ++ w3) lines ∧ DashOk true w3 dash ∧
    TyOk ty ∧ name.Ok ∧ NameStartOk ty name ∧ NameEndOk (itemsText items ++ w2) name ∧
    ItemsOk true w2 items ∧ space ≠ [] ∧ SpacesOk true (dashText dash' ++ w1) space ∧ DashOk true w1 dash' ∧
    (∀ k, key = some k → k.Ok) ∧ TyOk vty
  | .inside lines dash ty name items space dash' inner =>
    let w1 := '{' :: inner.text ++ w
    let w2 := spacesText space ++ dashText dash' ++ w1
    let w3 := tyText ty ++ name.text ++ itemsText items ++ w2
    LinesOk true (dashText dash ++ w3) lines ∧ DashOk true w3 dash ∧
    TyOk ty ∧ name.Ok ∧ NameStartOk ty name ∧ NameEndOk (itemsText items ++ w2) name ∧
    ItemsOk true w2 items ∧ SpacesOk true (dashText dash' ++ w1) space ∧ DashOk true w1 dash' ∧
    inner.Ok w
  | .after lines dash nd rest =>
    LinesOk true (dashText dash ++ nd.text ++ rest.text ++ w) lines ∧ DashOk true (nd.text ++ rest.text ++ w) dash ∧
    nd.Ok true (rest.text ++ w) ∧ rest.Ok w

/-- What is expected. -/
inductive Slot where
  | node | entry | value | literal
deriving DecidableEq, Repr

/-- What is expected after the beginning of a text. -/
def Open.slot : Open → Slot
  | .node _ _ => .node
  | .entry _ _ _ _ _ _ _ none none => .entry
  | .entry _ _ _ _ _ _ _ (some _) none => .value
  | .entry _ _ _ _ _ _ _ _ (some _) => .literal
  | .inside _ _ _ _ _ _ _ inner => inner.slot
  | .after _ _ _ rest => rest.slot

/-- Characters that may come after an entry or a node name: white space, a
newline, a comment, a line continuation, a children block, a semicolon. -/
def sepChars : List Char := wsChars ++ newlineChars ++ ['/', '\\', '{', ';']

/-- The text is empty or begins with such a character. -/
def Sep (f : Str) : Prop := ∀ c, f.head? = some c → c ∈ sepChars

/-- The text begins with what is expected. -/
def Fits (w : Str) : Slot → Prop
  | .node => ∃ ty n f, TyOk ty ∧ Name.Ok n ∧ w = tyText ty ++ n.text ++ f ∧ Sep f
  | .entry => ∃ e f, Entry.Ok e ∧ w = e.text ++ f ∧ Sep f
  | .value => ∃ v f, Val.Ok v ∧ w = v.text ++ f ∧ Sep f
  | .literal => ∃ l f, Lit.Ok l ∧ w = l.text ++ f ∧ Sep f

/-- The text does not begin with white space, a newline, a comment, a line
continuation, a brace, a semicolon or an equals sign. -/
def Begins (w : Str) : Prop :=
  ∃ c r, w = c :: r ∧ c ∉ wsChars ∧ c ∉ newlineChars ∧ c ∉ ['/', '\\', '{', '}', ';', '=']

/-- The beginning ends between two nodes (and not after a slash-dash). -/
def Open.betweenNodes : Open → Prop
  | .node _ dash => dash = none
  | .entry _ _ _ _ _ _ _ _ _ => False
  | .inside _ _ _ _ _ _ _ inner => inner.betweenNodes
  | .after _ _ _ rest => rest.betweenNodes

/-- No bare identifier goes on with this text. -/
def WordEnd (f : Str) : Prop := ∀ c, f.head? = some c → ¬ IdentChar c ∧ c ≠ '!'

/-- The text begins as a quoted string in which, after some legal characters, a
backslash does not begin a legal escape. -/
def BadString (w : Str) : Prop :=
  ∃ (good : List StrChar) (bad : Str), (∀ c ∈ good, StrChar.Ok c) ∧ w = '"' :: (good.flatMap StrChar.text ++ '\\' :: bad) ∧
    ∀ e, StrChar.Ok e → ¬ e.text <+: '\\' :: bad

/-- The literal is a number or a keyword, no string. -/
def Lit.isWord : Lit → Prop
  | .str _ => False
  | _ => True

end Knuffel.Cst
