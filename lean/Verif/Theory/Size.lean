import Verif.Spec.Size
import Verif.Props.Literals
/-!
# The document of a concrete tree is not larger than its text
-/

namespace Knuffel
open Cst

@[simp] theorem bytes_nil : bytes [] = 0 := rfl
@[simp] theorem bytes_cons (c : Char) (s : Str) : bytes (c :: s) = c.utf8Size + bytes s := rfl
@[simp] theorem bytes_append (s t : Str) : bytes (s ++ t) = bytes s + bytes t := by
  simp [bytes]

theorem bytes_pos {s : Str} (h : s ≠ []) : 1 ≤ bytes s := by
  cases s with
  | nil => exact absurd rfl h
  | cons c s => have := c.utf8Size_pos; simp; omega

theorem bytes_filter (p : Char → Bool) (s : Str) : bytes (s.filter p) ≤ bytes s := by
  induction s with
  | nil => simp
  | cons c s ih =>
    by_cases h : p c = true
    · rw [List.filter_cons_of_pos h]; simp; omega
    · rw [List.filter_cons_of_neg h]; simp; omega

theorem length_le_bytes (s : Str) : s.length ≤ bytes s := by
  induction s with
  | nil => simp
  | cons c s ih => have := c.utf8Size_pos; simp; omega

theorem size_strChar {c : StrChar} (h : c.Ok) : c.value.utf8Size ≤ bytes c.text := by
  cases c with
  | plain c => simp [StrChar.value, StrChar.text]
  | esc c =>
    have h : c ∈ escapes.map Prod.fst := h
    have h0 : ∀ c ∈ escapes.map Prod.fst, ((escapes.lookup c).getD c).utf8Size = 1 := by decide
    have := h0 c h
    have h1 := c.utf8Size_pos
    simp only [StrChar.value, StrChar.text, bytes_cons, bytes_nil]
    omega
  | unicode hx =>
    have h1 := (Char.ofNat (hexNumber hx)).utf8Size_le_four
    have h2 := length_le_bytes ('\\' :: 'u' :: '{' :: hx ++ ['}'])
    have h3 := h.1
    simp only [StrChar.value, StrChar.text]
    simp only [List.cons_append, List.length_cons, List.length_append, List.length_nil] at h2 ⊢
    omega

theorem size_quoted {l : List StrChar} (h : ∀ c ∈ l, c.Ok) : bytes (l.map StrChar.value) + 2 ≤ bytes (quotedText l) := by
  have : bytes (l.map StrChar.value) ≤ bytes (l.flatMap StrChar.text) := by
    induction l with
    | nil => simp
    | cons c l ih =>
      have h1 := size_strChar (h c (by simp))
      have h2 := ih (fun c hc => h c (by simp [hc]))
      simp only [List.map_cons, bytes_cons, List.flatMap_cons, bytes_append]
      omega
  have h1 : ('"' : Char).utf8Size = 1 := by decide
  simp only [quotedText, bytes_cons, bytes_append, List.cons_append, bytes_nil, h1]
  omega

theorem size_str {s : StrLit} (h : s.Ok) : bytes s.value + 2 ≤ bytes s.text := by
  cases s with
  | quoted l => exact size_quoted h
  | raw n b =>
    have h1 : ('"' : Char).utf8Size = 1 := by decide
    simp only [StrLit.value, StrLit.text, rawClose, bytes_cons, bytes_append, List.cons_append, h1]
    omega

theorem nameLeast_le (s : Str) : nameLeast s ≤ bytes s + 2 := by
  unfold nameLeast; split <;> omega

theorem nameLeast_pos (s : Str) : 1 ≤ nameLeast s := by
  unfold nameLeast
  split
  · omega
  · rename_i h; exact bytes_pos h

theorem bare_ne {s : Str} (h : BareIdent s) : s ≠ [] := by
  rintro rfl
  exact h.1

theorem size_name {n : Name} (h : n.Ok) : nameLeast n.value ≤ bytes n.text := by
  cases n with
  | bare s => simp [Name.value, Name.text, nameLeast, bare_ne h]
  | quoted l =>
    have := size_quoted h
    have := nameLeast_le (l.map StrChar.value)
    simp only [Name.value, Name.text]
    omega

theorem size_propName {n : PropName} (h : n.Ok) : nameLeast n.value ≤ bytes n.text := by
  cases n with
  | bare s => simp [PropName.value, PropName.text, nameLeast, bare_ne h.1]
  | str s =>
    have := size_str (s := s) h
    have := nameLeast_le s.value
    simp only [PropName.value, PropName.text]
    omega

theorem asStr_fromString (s : Str) : (TypeName.fromString s).asStr = s := by
  unfold TypeName.fromString
  cases h : BuiltinType.fromStr s with
  | none => rfl
  | some b => exact (fromStr_some h).symm

theorem size_ty {S : Type} (f : Nat → Nat → S) (pos : Nat) {ty : Option Name} (h : TyOk ty) :
    typeLeast (tyValue f pos ty) ≤ bytes (tyText ty) := by
  cases ty with
  | none => simp [tyValue, typeLeast]
  | some n =>
    have h1 := size_name (n := n) h
    have h2 : ('(' : Char).utf8Size = 1 := by decide
    have h3 : (')' : Char).utf8Size = 1 := by decide
    simp only [tyValue, typeLeast, tyText, asStr_fromString, List.cons_append, bytes_cons, bytes_append, bytes_nil, h2, h3]
    omega

theorem size_num {n : Num} (h : n.Ok) : n.value.least ≤ bytes n.text := by
  cases n with
  | dec s d ds fr ex =>
    simp only [Num.value, Num.text]
    split
    · exact bytes_filter _ _
    · have := bytes_filter (fun c => c != '_') (s.toList ++ d :: ds)
      simp only [Literal.least, strip, bytes_append] at this ⊢
      omega
  | radix s r d ds =>
    have h1 := bytes_filter (fun c => c != '_') (d :: ds)
    have h2 := (radixMark r).utf8Size_pos
    have h3 := ('0' : Char).utf8Size_pos
    have h4 := h.2.1
    cases r <;> simp only [Num.value, Num.text, Literal.least, strip, bytes_append, bytes_cons] at h1 h2 ⊢ <;> omega

theorem size_lit {l : Lit} (h : l.Ok) : l.value.least ≤ bytes l.text := by
  cases l with
  | str s => exact size_str (s := s) h
  | null => decide
  | bool b => cases b <;> decide
  | num n => exact size_num h

theorem size_val {S : Type} (f : Nat → Nat → S) (pos : Nat) {v : Val} (h : v.Ok) :
    (v.value f pos).least ≤ bytes v.text := by
  have h1 := size_ty f pos h.1
  have h2 := size_lit h.2
  simp only [Value.least, Val.value, Val.text, bytes_append]
  omega

theorem size_spaces {strict : Bool} {f : Str} {l : List Space} (h : l ≠ []) (ho : SpacesOk strict f l) : 1 ≤ bytes (spacesText l) := by
  cases l with
  | nil => exact absurd rfl h
  | cons x l =>
    have : x.text ≠ [] := by
      cases x with
      | ws w => cases w <;> simp [Space.text, Ws.text]
      | esc _ _ => simp [Space.text]
    have := bytes_pos this
    simp only [spacesText, List.flatMap_cons, bytes_append]
    omega

theorem size_items {S : Type} (f : Nat → Nat → S) (strict : Bool) (g : Str) : ∀ (l : List Item) (pos : Nat), ItemsOk strict g l →
    argsLeast (itemsArgs f pos l) + propsLeast (itemsProps f pos l) ≤ bytes (itemsText l)
  | [], _, _ => by simp [itemsArgs, itemsProps, argsLeast, propsLeast]
  | ⟨sp, dash, e⟩ :: l, pos, h => by
    have ih := size_items f strict g l (pos + (Item.mk sp dash e).text.length) h.2
    have h1 : 1 ≤ bytes (spacesText sp) := size_spaces h.1.1 h.1.2.1
    have h2 : e.Ok := h.1.2.2.2
    have h3 : bytes (itemsText (⟨sp, dash, e⟩ :: l)) = bytes (spacesText sp) + bytes (dashText dash) + bytes e.text + bytes (itemsText l) := by
      simp [itemsText, Item.text]; omega
    rw [h3]
    cases dash with
    | some d =>
      simp only [itemsArgs, itemsProps]
      omega
    | none =>
      cases e with
      | arg v =>
        have h4 := size_val f (pos + (spacesText sp ++ dashText none).length) (v := v) h2
        simp only [itemsArgs, itemsProps, argsLeast, List.map_cons, List.sum_cons, Entry.text] at ih ⊢
        omega
      | prop n v =>
        have h4 := size_val f (pos + (spacesText sp ++ dashText none).length + n.text.length + 1) (v := v) h2.2
        have h5 := size_propName h2.1
        have h6 : ('=' : Char).utf8Size = 1 := by decide
        simp only [itemsArgs, itemsProps, propsLeast, List.map_cons, List.sum_cons, Entry.text, bytes_append, bytes_cons, h6] at ih ⊢
        omega

theorem size_insert {S : Type} (k : Spanned Str S) (v : Value S) : ∀ m : List (Spanned Str S × Value S),
    propsLeast (propInsert k v m) ≤ nameLeast k.value + v.least + 2 + propsLeast m
  | [] => by simp [propInsert, propsLeast]
  | (k', v') :: m => by
    have ih := size_insert k v m
    unfold propInsert
    split
    · rename_i h
      simp only [propsLeast, List.map_cons, List.sum_cons, ← h]
      omega
    · split
      · simp [propsLeast]
      · simp only [propsLeast, List.map_cons, List.sum_cons] at ih ⊢
        omega

theorem size_propMap {S : Type} (l : List (Spanned Str S × Value S)) : propsLeast (propMap l) ≤ propsLeast l := by
  suffices ∀ m, propsLeast (l.foldl (fun m kv => propInsert kv.1 kv.2 m) m) ≤ propsLeast m + propsLeast l by
    have := this []
    simpa [propMap, propsLeast] using this
  induction l with
  | nil => intro m; simp [propsLeast]
  | cons p l ih =>
    intro m
    have h1 := ih (propInsert p.1 p.2 m)
    have h2 := size_insert p.1 p.2 m
    simp only [List.foldl_cons]
    simp only [propsLeast, List.map_cons, List.sum_cons] at h1 h2 ⊢
    omega

theorem size_term {t : Term} {f : Str} (h : t.Ok f) : f = [] ∨ 1 ≤ bytes t.text := by
  cases t with
  | newline n => right; apply bytes_pos; cases n <;> simp [Term.text, Newline.text]
  | comment c => right; apply bytes_pos; simp [Term.text, LineComment.text]
  | semicolon => right; apply bytes_pos; simp [Term.text]
  | eof => exact Or.inl h

theorem name_text_ne {n : Name} (h : n.Ok) : n.text ≠ [] := by
  cases n with
  | bare s => exact bare_ne h
  | quoted l => simp [Name.text, quotedText]

theorem node_text_ne {strict : Bool} {f : Str} : ∀ {n : NodeC}, n.Ok strict f → n.text ≠ []
  | .mk ty name items children space term, h => by
    have := name_text_ne h.2.1
    simp [NodeC.text, this]

theorem size_empty {S : Type} (sp : Nat → Nat → S) {strict : Bool} {f : Str} : ∀ {b : BodyC} (pos : Nat), b.Ok strict f → b.text = [] →
    b.value sp pos = []
  | .nil _, _, _, _ => by simp [BodyC.value]
  | .cons lines dash node rest, _, h, ht => by
    have := node_text_ne h.2.2.1
    simp [BodyC.text, this] at ht

mutual
theorem size_node {S : Type} (sp : Nat → Nat → S) (strict : Bool) : ∀ (n : NodeC) (pos : Nat) (f : Str), n.Ok strict f →
    (n.value sp pos).value.least ≤ bytes n.text + 1 ∧ (f ≠ [] → (n.value sp pos).value.least ≤ bytes n.text)
  | .mk ty name items children space term, pos, f, h => by
    obtain ⟨h1, h2, _, _, h3, h4, _, h5⟩ := h
    have a1 := size_ty sp pos h1
    have a2 := size_name h2
    have a3 := size_items sp strict _ items (pos + (tyText ty ++ name.text).length) h3
    have a4 := size_propMap (itemsProps sp (pos + (tyText ty ++ name.text).length) items)
    have a5 := size_children sp strict children (pos + (tyText ty ++ name.text ++ itemsText items).length) _ h4
    have a6 := size_term h5
    simp only [NodeC.value, Node.least, NodeC.text, bytes_append]
    constructor
    · omega
    · intro hf
      have := a6.resolve_left hf
      omega
theorem size_children {S : Type} (sp : Nat → Nat → S) (strict : Bool) : ∀ (c : ChildrenC) (pos : Nat) (f : Str), c.Ok strict f →
    childrenLeast (c.value sp pos) ≤ bytes c.text
  | .none, _, _, _ => by simp [ChildrenC.value, childrenLeast]
  | .some space (some d) body, _, _, _ => by simp [ChildrenC.value, childrenLeast]
  | .some space none body, pos, f, h => by
    have ih := (size_body sp strict body (pos + (spacesText space).length + 1) ('}' :: f) h.2.2).2 (by simp)
    have h2 : ('{' : Char).utf8Size = 1 := by decide
    have h3 : ('}' : Char).utf8Size = 1 := by decide
    simp only [ChildrenC.value, childrenLeast, ChildrenC.text, bytes_append, bytes_cons, bytes_nil, h2, h3]
    omega
theorem size_body {S : Type} (sp : Nat → Nat → S) (strict : Bool) : ∀ (b : BodyC) (pos : Nat) (f : Str), b.Ok strict f →
    nodesLeast (b.value sp pos) ≤ bytes b.text + 1 ∧ (f ≠ [] → nodesLeast (b.value sp pos) ≤ bytes b.text)
  | .nil _, _, _, _ => by simp [BodyC.value, nodesLeast]
  | .cons lines dash node rest, pos, f, h => by
    obtain ⟨_, _, h1, h2⟩ := h
    have a1 := size_node sp strict node (pos + (linesText lines ++ dashText dash).length) _ h1
    have a2 := size_body sp strict rest (pos + (linesText lines ++ dashText dash).length + node.text.length) f h2
    have a3 := size_empty sp (pos + (linesText lines ++ dashText dash).length + node.text.length) h2
    cases dash with
    | some d =>
      simp only [BodyC.value, BodyC.text, bytes_append] at a2 ⊢
      constructor
      · omega
      · intro hf; have := a2.2 hf; omega
    | none =>
      simp only [BodyC.value, BodyC.text, bytes_append, nodesLeast]
      by_cases hr : rest.text = []
      · rw [a3 hr]
        simp only [nodesLeast]
        constructor
        · omega
        · intro hf
          have := a1.2 (by simp [hf])
          omega
      · have a4 := a1.2 (by simp [hr])
        constructor
        · omega
        · intro hf; have := a2.2 hf; omega
end

mutual
theorem count_node {S : Type} : ∀ n : Node S, 2 * n.count + n.entries ≤ n.least
  | .mk ty name args props children => by
    have h1 := nameLeast_pos name.value
    have h2 := count_children children
    have h3 : args.length ≤ argsLeast args := by
      unfold argsLeast
      induction args with
      | nil => simp
      | cons v l ih => simp only [List.length_cons, List.map_cons, List.sum_cons]; omega
    have h4 : props.length ≤ propsLeast props := by
      unfold propsLeast
      induction props with
      | nil => simp
      | cons v l ih => simp only [List.length_cons, List.map_cons, List.sum_cons]; omega
    simp only [Node.count, Node.entries, Node.least]
    omega
theorem count_children {S : Type} : ∀ c : Option (Spanned (List (Spanned (Node S) S)) S),
    2 * childrenCount c + childrenEntries c ≤ childrenLeast c
  | none => by simp [childrenCount, childrenEntries, childrenLeast]
  | some ⟨_, l⟩ => by
    have := count_nodes l
    simp only [childrenCount, childrenEntries, childrenLeast]
    omega
theorem count_nodes {S : Type} : ∀ l : List (Spanned (Node S) S), 2 * nodesCount l + nodesEntries l ≤ nodesLeast l
  | [] => by simp [nodesCount, nodesEntries, nodesLeast]
  | ⟨_, n⟩ :: l => by
    have := count_node n
    have := count_nodes l
    simp only [nodesCount, nodesEntries, nodesLeast]
    omega
end

end Knuffel
