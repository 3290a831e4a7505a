import Verif.Theory.Meaning
/-!
# Nesting of the spans in the meaning of concrete syntax
-/

namespace Knuffel
open Cst

variable {S : Type}

/-- `R` holds of the spans of nested parts of the text. -/
def Mono (R : S → S → Prop) (f : Nat → Nat → S) (p n : Nat) : Prop :=
  ∀ i j i' j', p ≤ i' → i' ≤ i → i < j → j ≤ j' → j' ≤ p + n → R (f i j) (f i' j')

theorem tyValue_nested {R : S → S → Prop} {f : Nat → Nat → S} {p n i' j' q : Nat} {ty : Option Name} (h : Mono R f p n)
    (h1 : p ≤ i') (h2 : i' ≤ q) (h3 : q + (tyText ty).length ≤ j') (h4 : j' ≤ p + n) :
    ∀ t, tyValue f q ty = some t → R t.span (f i' j') := by
  cases ty with
  | none => intro t ht; simp [tyValue] at ht
  | some x =>
    intro t ht
    simp only [tyValue, Option.some.injEq] at ht
    subst ht
    exact h _ _ _ _ h1 h2 (by simp [tyText]) h3 h4

theorem val_nested {R : S → S → Prop} {f : Nat → Nat → S} {p n i' j' q : Nat} {v : Val} (h : Mono R f p n)
    (h1 : p ≤ i') (h2 : i' ≤ q) (h3 : q + v.text.length ≤ j') (h4 : j' ≤ p + n) :
    (v.value f q).AllSpans (R · (f i' j')) := by
  have h0 := lit_ne_nil (l := v.lit)
  simp only [Val.text, List.length_append] at h3
  refine ⟨tyValue_nested h h1 h2 (by omega) h4, ?_⟩
  exact h _ _ _ _ h1 (by omega) (by omega) (by omega) h4

theorem itemsArgs_nested {R : S → S → Prop} {f : Nat → Nat → S} {p n i' j' : Nat} {l : List Item} (h : Mono R f p n)
    (h1 : p ≤ i') (h4 : j' ≤ p + n) : ∀ {q}, i' ≤ q → q + (itemsText l).length ≤ j' →
    ∀ v ∈ itemsArgs f q l, v.AllSpans (R · (f i' j')) := by
  induction l with
  | nil => intro q _ _ v hv; simp [itemsArgs] at hv
  | cons i l ih =>
    intro q h2 h3
    simp only [itemsText, List.flatMap_cons, List.length_append] at h3
    have hi : i.text.length = (spacesText i.before ++ dashText i.dash).length + i.entry.text.length := by
      simp [Item.text, Nat.add_assoc]
    have h5 := ih (q := q + i.text.length) (by omega) (by simp only [itemsText]; omega)
    unfold itemsArgs
    cases hd : i.dash with
    | some d => exact h5
    | none =>
      cases he : i.entry with
      | prop _ _ => exact h5
      | arg v =>
        rw [hd, he] at hi
        simp only [Entry.text] at hi
        simp only [List.mem_cons, forall_eq_or_imp]
        exact ⟨val_nested h h1 (by omega) (by omega) h4, h5⟩

theorem itemsProps_nested {R : S → S → Prop} {f : Nat → Nat → S} {p n i' j' : Nat} {str : Bool} {fol : Str} {l : List Item}
    (h : Mono R f p n) (h1 : p ≤ i') (h4 : j' ≤ p + n) (hok : ItemsOk str fol l) :
    ∀ {q}, i' ≤ q → q + (itemsText l).length ≤ j' →
    ∀ kv ∈ itemsProps f q l, R kv.1.span (f i' j') ∧ kv.2.AllSpans (R · (f i' j')) := by
  induction l with
  | nil => intro q _ _ v hv; simp [itemsProps] at hv
  | cons i l ih =>
    intro q h2 h3
    simp only [itemsText, List.flatMap_cons, List.length_append] at h3
    have hi : i.text.length = (spacesText i.before ++ dashText i.dash).length + i.entry.text.length := by
      simp [Item.text, Nat.add_assoc]
    have h5 := ih hok.2 (q := q + i.text.length) (by omega) (by simp only [itemsText]; omega)
    have hen := hok.1.2.2.2
    unfold itemsProps
    cases hd : i.dash with
    | some d => exact h5
    | none =>
      cases he : i.entry with
      | arg _ => exact h5
      | prop k v =>
        rw [he] at hen
        have hk := propName_ne_nil hen.1
        rw [hd, he] at hi
        simp only [Entry.text, List.length_append, List.length_cons] at hi
        simp only [List.mem_cons, forall_eq_or_imp, List.length_append]
        refine ⟨⟨h _ _ _ _ h1 (by omega) (by omega) (by omega) h4, val_nested h h1 (by omega) (by omega) h4⟩, ?_⟩
        intro kv hkv
        exact h5 kv hkv

theorem propInsert_all {P : Spanned Str S → Prop} {Q : Value S → Prop} {k : Spanned Str S} {v : Value S}
    {l : List (Spanned Str S × Value S)} (hk : P k) (hv : Q v) (hl : ∀ kv ∈ l, P kv.1 ∧ Q kv.2) :
    ∀ kv ∈ propInsert k v l, P kv.1 ∧ Q kv.2 := by
  induction l with
  | nil => simp [propInsert, hk, hv]
  | cons x l ih =>
    obtain ⟨k', v'⟩ := x
    simp only [List.mem_cons, forall_eq_or_imp] at hl
    unfold propInsert
    split
    · simp only [List.mem_cons, forall_eq_or_imp]; exact ⟨⟨hl.1.1, hv⟩, hl.2⟩
    · split
      · simp only [List.mem_cons, forall_eq_or_imp]; exact ⟨⟨hk, hv⟩, hl.1, hl.2⟩
      · simp only [List.mem_cons, forall_eq_or_imp]; exact ⟨hl.1, ih hl.2⟩

theorem propMap_all {P : Spanned Str S → Prop} {Q : Value S → Prop}
    {l : List (Spanned Str S × Value S)} (hl : ∀ kv ∈ l, P kv.1 ∧ Q kv.2) : ∀ kv ∈ propMap l, P kv.1 ∧ Q kv.2 := by
  unfold propMap
  suffices ∀ acc : List (Spanned Str S × Value S), (∀ kv ∈ acc, P kv.1 ∧ Q kv.2) →
      ∀ kv ∈ l.foldl (fun m kv => propInsert kv.1 kv.2 m) acc, P kv.1 ∧ Q kv.2 from this [] (by simp)
  induction l with
  | nil => intro acc h; exact h
  | cons x l ih =>
    intro acc h
    simp only [List.mem_cons, forall_eq_or_imp] at hl
    rw [List.foldl_cons]
    exact ih hl.2 _ (propInsert_all hl.1.1 hl.1.2 h)

mutual
theorem node_nested {R : S → S → Prop} {f : Nat → Nat → S} {str : Bool} {p n q : Nat} {fol : Str} (c : NodeC)
    (h : Mono R f p n) (hp : p ≤ q) (hn : q + c.text.length ≤ p + n) (hok : c.Ok str fol) :
    (c.value f q).span = f q (q + c.text.length) ∧ (c.value f q).value.Nested R (c.value f q).span := by
  match c with
  | .mk ty name items children space term =>
    obtain ⟨h1, h2, h3, h4, h5, h6, h7, h8⟩ := hok
    have hnm := name_ne_nil h2
    have hl : (NodeC.mk ty name items children space term).text.length = (tyText ty).length + name.text.length +
        (itemsText items).length + children.text.length + (spacesText space).length + term.text.length := by
      simp only [NodeC.text, List.length_append]
    simp only [NodeC.value, Node.Nested, true_and]
    refine ⟨tyValue_nested h hp (by omega) (by omega) hn, ?_, ?_, ?_, ?_⟩
    · exact h _ _ _ _ hp (by omega) (by omega) (by omega) hn
    · exact itemsArgs_nested h hp hn (by omega) (by simp only [List.length_append]; omega)
    · exact propMap_all (P := fun k => R k.span _) (Q := fun v => v.AllSpans (R · _))
        (itemsProps_nested h hp hn h5 (by omega) (by simp only [List.length_append]; omega))
    · exact children_nested children h hp hn (by omega) (by simp only [List.length_append]; omega) h6
theorem children_nested {R : S → S → Prop} {f : Nat → Nat → S} {str : Bool} {p n i' j' q : Nat} {fol : Str} (c : ChildrenC)
    (h : Mono R f p n) (hp : p ≤ i') (hn : j' ≤ p + n) (hi : i' ≤ q) (hj : q + c.text.length ≤ j') (hok : c.Ok str fol) :
    NestedChildren R (f i' j') (c.value f q) := by
  match c with
  | .none => simp [ChildrenC.value, NestedChildren]
  | .some space (some d) body => simp [ChildrenC.value, NestedChildren]
  | .some space none body =>
    obtain ⟨h1, h2, h3⟩ := hok
    have hl := hj
    simp only [ChildrenC.text, dashText, List.length_append, List.length_cons, List.length_nil, List.append_nil] at hl
    simp only [ChildrenC.value, NestedChildren]
    exact ⟨h _ _ _ _ hp (by omega) (by omega) (by omega) hn,
      body_nested body h (by omega) (by omega) (by omega) (by omega) h3⟩
theorem body_nested {R : S → S → Prop} {f : Nat → Nat → S} {str : Bool} {p n i' j' q : Nat} {fol : Str} (b : BodyC)
    (h : Mono R f p n) (hp : p ≤ i') (hn : j' ≤ p + n) (hi : i' ≤ q) (hj : q + b.text.length ≤ j') (hok : b.Ok str fol) :
    NestedNodes R (f i' j') (b.value f q) := by
  match b with
  | .nil lines => simp [BodyC.value, NestedNodes]
  | .cons lines dash node rest =>
    obtain ⟨h1, h2, h3, h4⟩ := hok
    have hl := hj
    simp only [BodyC.text, List.length_append] at hl
    have hc := node_nested (q := q + (linesText lines ++ dashText dash).length) node h
      (by omega) (by simp only [List.length_append]; omega) h3
    have hr := body_nested (q := q + (linesText lines ++ dashText dash).length + node.text.length) rest h hp hn
      (by omega) (by simp only [List.length_append]; omega) h4
    cases dash with
    | some d => simp only [BodyC.value]; exact hr
    | none =>
      simp only [BodyC.value, NestedNodes]
      refine ⟨?_, hc.2, hr⟩
      rw [hc.1]
      have : 0 < node.text.length := by
        cases node with
        | mk ty name items children space term =>
          have := name_ne_nil h3.2.1
          simp only [NodeC.text, List.length_append]; omega
      exact h _ _ _ _ hp (by omega) (by omega) (by simp only [List.length_append]; omega) hn
end

/-! ### Line positions -/

theorem chars_lineToks (width : Char → Nat) (t : LineTracker) (text : Str) : chars (lineToks width t text) = text := by
  induction text generalizing t with
  | nil => rfl
  | cons c s ih => simp [lineToks, ih]

theorem lineToks_length (width : Char → Nat) (t : LineTracker) (text : Str) :
    (lineToks width t text).length = text.length := by
  rw [← chars_length, chars_lineToks]

/-- The tracker after a text. -/
def trackAll (width : Char → Nat) : LineTracker → Str → LineTracker
  | t, [] => t
  | t, c :: cs => trackAll width (t.next width c).1 cs

/-- The position of a tracker. -/
def trackPos (t : LineTracker) : LinePos := ⟨t.offset, t.line, t.column⟩

theorem lineToks_get {width : Char → Nat} {t : LineTracker} {text : Str} {i : Nat} (h : i < text.length) :
    (lineToks width t text)[i]? = some (text[i], ⟨trackPos (trackAll width t (text.take i)),
      trackPos (trackAll width t (text.take (i + 1)))⟩) := by
  induction text generalizing t i with
  | nil => simp at h
  | cons c s ih =>
    cases i with
    | zero =>
      simp [lineToks, trackAll, trackPos, LineTracker.next]
    | succ i =>
      simp only [List.length_cons] at h
      simp [lineToks, ih (t := (t.next width c).1) (i := i) (by omega), trackAll]

theorem spf_of_get {O : Type} {eoi : Sp O} {all : List (Tok O)} {i j : Nat} {pos : Nat → O}
    (hg : ∀ k, k < all.length → ∃ c, all[k]? = some (c, ⟨pos k, pos (k + 1)⟩)) (hij : i < j) (hj : j ≤ all.length) :
    spf eoi all i j = ⟨pos i, pos j⟩ := by
  unfold spf spanSince
  obtain ⟨c1, h1⟩ := hg i (by omega)
  obtain ⟨c2, h2⟩ := hg (j - 1) (by omega)
  have hd : all.drop i = (c1, ⟨pos i, pos (i + 1)⟩) :: all.drop (i + 1) := by
    rw [List.drop_eq_getElem_cons (by omega)]
    rw [List.getElem?_eq_getElem (by omega)] at h1
    rw [Option.some.injEq] at h1
    rw [h1]
  have he : (all.drop i)[(all.drop i).length - (all.drop j).length - 1]? = all[j - 1]? := by
    rw [List.getElem?_drop]
    congr 1
    simp only [List.length_drop]
    omega
  rw [he, h2]
  simp only
  rw [hd]
  have : j - 1 + 1 = j := by omega
  simp [this]

/-- The span of some characters of a text, in lines. -/
def trackSpan (width : Char → Nat) (text : Str) (i j : Nat) : Sp LinePos :=
  ⟨trackPos (trackAll width .init (text.take i)), trackPos (trackAll width .init (text.take j))⟩

theorem value_line {width : Char → Nat} {strWidth : Str → Nat} {str : Bool} {text : Str} {b : BodyC}
    (hok : b.Ok str []) (ht : b.text = text) :
    b.value (spf (lineEoi strWidth text) (lineToks width .init text)) 0 = b.value (trackSpan width text) 0 := by
  rw [← mapNodes_id (b.value (spf _ _) 0)]
  refine body_map (n := text.length) b ?_ (by rw [ht]; exact Nat.le_refl _) hok
  intro i j i' j' _ h1 h2 h3 h4
  have : i' = i := by omega
  have : j' = j := by omega
  subst i' j'
  have hl := lineToks_length width .init text
  refine spf_of_get (pos := fun i => trackPos (trackAll width .init (text.take i))) ?_ h1 (by omega)
  intro k hk
  exact ⟨_, lineToks_get (by omega)⟩

theorem parse_sound_line {width : Char → Nat} {strWidth : Str → Nat} {text : Str} {d : Document (Sp LinePos)}
    (h : parseAstLine width strWidth text = some (.ok d)) :
    ∃ b : BodyC, b.Ok false [] ∧ b.text = text ∧ d.nodes = b.value (trackSpan width text) 0 := by
  obtain ⟨_, b, h1, h2, h3⟩ := document_sound (run_ok_iff.1 h)
  rw [chars_lineToks] at h2
  exact ⟨b, h1, h2, by rw [h3, value_line h1 h2]⟩

/-- **Refinement**: line spans, for a text of given meaning. -/
theorem parse_complete_line {width : Char → Nat} {strWidth : Str → Nat} {text : Str} (b : BodyC) (hok : b.Ok true [])
    (ht : b.text = text) : parseAstLine width strWidth text = some (.ok ⟨b.value (trackSpan width text) 0⟩) := by
  unfold parseAstLine
  rw [run_ok_iff]
  have := document_complete (eoi := lineEoi strWidth text) (all := lineToks width .init text) b hok (by rw [chars_lineToks, ht])
  rwa [value_line hok ht] at this

end Knuffel
