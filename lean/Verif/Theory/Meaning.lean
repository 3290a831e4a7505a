import Verif.Spec.Doc
import Verif.Theory.Nodes
import Verif.Theory.NoPanicNode
import Verif.Model.Wrappers
/-!
# The meaning of concrete syntax, as a function of the spans
-/

namespace Knuffel
open Cst

variable {S T : Type}

/-- How two span functions are related on a part of the text. -/
def SpanRel (g : S → T) (f : Nat → Nat → S) (f' : Nat → Nat → T) (p p' n : Nat) : Prop :=
  ∀ i j i' j', p ≤ i → i < j → j ≤ p + n → i' + p = i + p' → j' + p = j + p' → g (f i j) = f' i' j'

theorem SpanRel.sub {g : S → T} {f f'} {p p' n q q' m : Nat} (h : SpanRel g f f' p p' n)
    (h1 : p ≤ q) (h2 : q + m ≤ p + n) (h3 : q' + p = q + p') : SpanRel g f f' q q' m := by
  intro i j i' j' a b c d e
  exact h i j i' j' (by omega) b (by omega) (by omega) (by omega)

theorem name_ne_nil {n : Name} (h : n.Ok) : 0 < n.text.length := by
  cases n with
  | bare s => exact List.length_pos_iff.2 (identShape_ne_nil h.1)
  | quoted l => simp [Name.text, quotedText]

theorem lit_ne_nil {l : Lit} : 0 < l.text.length := by
  cases l with
  | str s => cases s <;> simp [Lit.text, StrLit.text, quotedText]
  | null => decide
  | bool b => cases b <;> decide
  | num n => cases n <;> simp [Lit.text, Num.text] <;> omega

theorem propName_ne_nil {n : PropName} (h : n.Ok) : 0 < n.text.length := by
  cases n with
  | bare s => exact List.length_pos_iff.2 (identShape_ne_nil h.1.1)
  | str s => cases s <;> simp [PropName.text, StrLit.text, quotedText]

theorem tyValue_map {g : S → T} {f f'} {p p' n : Nat} {ty : Option Name} (h : SpanRel g f f' p p' n)
    (hn : (tyText ty).length ≤ n) : (tyValue f p ty).map (Spanned.mapSpan g) = tyValue f' p' ty := by
  cases ty with
  | none => rfl
  | some x =>
    simp only [tyValue, Option.map_some, Spanned.mapSpan, Option.some.injEq, Spanned.mk.injEq, and_true]
    exact h _ _ _ _ (by omega) (by simp [tyText]) (by omega) (by omega) (by omega)

theorem val_map {g : S → T} {f f'} {p p' n : Nat} {v : Val} (h : SpanRel g f f' p p' n)
    (hn : v.text.length ≤ n) : (v.value f p).mapSpan g = v.value f' p' := by
  have h0 := lit_ne_nil (l := v.lit)
  simp only [Val.text, List.length_append] at hn
  simp only [Val.value, Value.mapSpan, Spanned.mapSpan, Value.mk.injEq, Spanned.mk.injEq, and_true]
  exact ⟨tyValue_map h (by omega), h _ _ _ _ (by omega) (by omega) (by omega) (by omega) (by omega)⟩

theorem itemsArgs_map {g : S → T} {f f'} {str : Bool} {l : List Item} : ∀ {p p' n : Nat} {fol : Str},
    SpanRel g f f' p p' n → (itemsText l).length ≤ n → ItemsOk str fol l →
    (itemsArgs f p l).map (Value.mapSpan g) = itemsArgs f' p' l := by
  induction l with
  | nil => intros; rfl
  | cons i l ih =>
    intro p p' n fol h hn hok
    simp only [itemsText, List.flatMap_cons, List.length_append] at hn
    have h1 := ih (p := p + i.text.length) (p' := p' + i.text.length) (n := n - i.text.length) (fol := fol)
      (h.sub (by omega) (by omega) (by omega)) (by simp only [itemsText]; omega) hok.2
    have hi : i.text.length = (spacesText i.before ++ dashText i.dash).length + i.entry.text.length := by
      simp [Item.text, Nat.add_assoc]
    unfold itemsArgs
    cases hd : i.dash with
    | some d => simp only [h1]
    | none =>
      cases he : i.entry with
      | prop _ _ => simp only [h1]
      | arg v =>
        simp only [List.map_cons, h1, List.cons.injEq, and_true]
        rw [hd, he] at hi
        refine val_map (n := v.text.length) (h.sub (by omega) ?_ (by omega)) (Nat.le_refl _)
        simp only [Entry.text] at hi
        omega

theorem itemsProps_map {g : S → T} {f f'} {str : Bool} {l : List Item} : ∀ {p p' n : Nat} {fol : Str},
    SpanRel g f f' p p' n → (itemsText l).length ≤ n → ItemsOk str fol l →
    mapProps g (itemsProps f p l) = itemsProps f' p' l := by
  induction l with
  | nil => intros; rfl
  | cons i l ih =>
    intro p p' n fol h hn hok
    simp only [itemsText, List.flatMap_cons, List.length_append] at hn
    have h1 := ih (p := p + i.text.length) (p' := p' + i.text.length) (n := n - i.text.length) (fol := fol)
      (h.sub (by omega) (by omega) (by omega)) (by simp only [itemsText]; omega) hok.2
    have hi : i.text.length = (spacesText i.before ++ dashText i.dash).length + i.entry.text.length := by
      simp [Item.text, Nat.add_assoc]
    have hen := hok.1.2.2.2
    unfold itemsProps
    cases hd : i.dash with
    | some d => simp only [h1]
    | none =>
      cases he : i.entry with
      | arg _ => simp only [h1]
      | prop k v =>
        rw [he] at hen
        have hk := propName_ne_nil hen.1
        rw [hd, he] at hi
        simp only [Entry.text, List.length_append, List.length_cons] at hi
        simp only [mapProps, List.map_cons]
        rw [mapProps] at h1
        rw [h1]
        simp only [List.cons.injEq, and_true, Prod.mk.injEq, Spanned.mapSpan, Spanned.mk.injEq, List.length_append]
        refine ⟨h _ _ _ _ (by omega) (by omega) (by omega) (by omega) (by omega), ?_⟩
        refine val_map (n := v.text.length) (h.sub (by omega) (by omega) (by omega)) (Nat.le_refl _)

theorem propInsert_map {g : S → T} {k : Spanned Str S} {v : Value S} {l : List (Spanned Str S × Value S)} :
    mapProps g (propInsert k v l) = propInsert (k.mapSpan g) (v.mapSpan g) (mapProps g l) := by
  induction l with
  | nil => rfl
  | cons x l ih =>
    obtain ⟨k', v'⟩ := x
    simp only [mapProps] at ih
    simp only [propInsert, mapProps, List.map_cons, Spanned.mapSpan]
    split
    · simp
    · split
      · rfl
      · simp only [List.map_cons, List.cons.injEq]
        exact ⟨trivial, ih⟩

theorem propMap_map {g : S → T} {l : List (Spanned Str S × Value S)} :
    mapProps g (propMap l) = propMap (mapProps g l) := by
  unfold propMap
  suffices ∀ acc, mapProps g (l.foldl (fun m kv => propInsert kv.1 kv.2 m) acc) =
      (mapProps g l).foldl (fun m kv => propInsert kv.1 kv.2 m) (mapProps g acc) from this []
  induction l with
  | nil => intro acc; rfl
  | cons x l ih =>
    intro acc
    rw [List.foldl_cons, ih, propInsert_map]
    rfl

mutual
theorem node_map {g : S → T} {f f'} {str : Bool} {p p' n : Nat} {fol : Str} (c : NodeC)
    (h : SpanRel g f f' p p' n) (hn : c.text.length ≤ n) (hok : c.Ok str fol) :
    (c.value f p).mapSpan g = ⟨(c.value f' p').span, (c.value f p).value⟩ ∧
      (c.value f p).value.mapSpan g = (c.value f' p').value := by
  match c with
  | .mk ty name items children space term =>
    obtain ⟨h1, h2, h3, h4, h5, h6, h7, h8⟩ := hok
    have hnm := name_ne_nil h2
    have hn' := hn
    simp only [NodeC.text, List.length_append] at hn'
    have hc := children_map (g := g) (f := f) (f' := f') (str := str)
      (p := p + (tyText ty ++ name.text ++ itemsText items).length)
      (p' := p' + (tyText ty ++ name.text ++ itemsText items).length) (n := children.text.length)
      children (h.sub (by omega) (by simp only [List.length_append]; omega) (by omega)) (Nat.le_refl _) h6
    constructor
    · simp only [NodeC.value, Spanned.mapSpan, Spanned.mk.injEq, and_true]
      refine h _ _ _ _ (by omega) ?_ (by omega) (by omega) (by omega)
      simp only [NodeC.text, List.length_append]; omega
    · simp only [NodeC.value, Node.mapSpan]
      rw [hc, propMap_map, itemsProps_map (p' := p' + (tyText ty ++ name.text).length) (n := (itemsText items).length)
          (h.sub (by omega) (by simp only [List.length_append]; omega) (by omega)) (Nat.le_refl _) h5,
        itemsArgs_map (p' := p' + (tyText ty ++ name.text).length) (n := (itemsText items).length)
          (h.sub (by omega) (by simp only [List.length_append]; omega) (by omega)) (Nat.le_refl _) h5,
        tyValue_map h (by omega)]
      congr 1
      simp only [Spanned.mapSpan, Spanned.mk.injEq, and_true]
      exact h _ _ _ _ (by omega) (by omega) (by omega) (by omega) (by omega)
theorem children_map {g : S → T} {f f'} {str : Bool} {p p' n : Nat} {fol : Str} (c : ChildrenC)
    (h : SpanRel g f f' p p' n) (hn : c.text.length ≤ n) (hok : c.Ok str fol) :
    mapChildren g (c.value f p) = c.value f' p' := by
  match c with
  | .none => simp [ChildrenC.value, mapChildren]
  | .some space (some d) body => simp [ChildrenC.value, mapChildren]
  | .some space none body =>
    obtain ⟨h1, h2, h3⟩ := hok
    have hn' := hn
    simp only [ChildrenC.text, dashText, List.length_append, List.length_cons, List.length_nil, List.append_nil] at hn'
    have hb := body_map (g := g) (f := f) (f' := f') (str := str)
      (p := p + (spacesText space).length + 1) (p' := p' + (spacesText space).length + 1) (n := body.text.length)
      body (h.sub (by omega) (by omega) (by omega)) (Nat.le_refl _) h3
    simp only [ChildrenC.value, mapChildren, hb, Option.some.injEq, Spanned.mk.injEq, and_true]
    exact h _ _ _ _ (by omega) (by omega) (by omega) (by omega) (by omega)
theorem body_map {g : S → T} {f f'} {str : Bool} {p p' n : Nat} {fol : Str} (b : BodyC)
    (h : SpanRel g f f' p p' n) (hn : b.text.length ≤ n) (hok : b.Ok str fol) :
    mapNodes g (b.value f p) = b.value f' p' := by
  match b with
  | .nil lines => simp [BodyC.value, mapNodes]
  | .cons lines dash node rest =>
    obtain ⟨h1, h2, h3, h4⟩ := hok
    have hn' := hn
    simp only [BodyC.text, List.length_append] at hn'
    have hc := node_map (g := g) (f := f) (f' := f') (str := str)
      (p := p + (linesText lines ++ dashText dash).length) (p' := p' + (linesText lines ++ dashText dash).length)
      (n := node.text.length) node (h.sub (by omega) (by simp only [List.length_append]; omega) (by omega)) (Nat.le_refl _) h3
    have hr := body_map (g := g) (f := f) (f' := f') (str := str)
      (p := p + (linesText lines ++ dashText dash).length + node.text.length)
      (p' := p' + (linesText lines ++ dashText dash).length + node.text.length)
      (n := rest.text.length) rest (h.sub (by omega) (by simp only [List.length_append]; omega) (by omega)) (Nat.le_refl _) h4
    cases dash with
    | some d => simp only [BodyC.value, hr]
    | none =>
      simp only [BodyC.value, mapNodes, hr, List.cons.injEq, and_true]
      rw [hc.2]
      have := hc.1
      simp only [Spanned.mapSpan, Spanned.mk.injEq, and_true] at this
      rw [this]
end

/-! ### Byte spans -/

theorem byteLen_append (a b : Str) : byteLen (a ++ b) = byteLen a + byteLen b := by
  induction a with
  | nil => simp [byteLen]
  | cons c a ih => simp [byteLen, ih]; omega

theorem chars_offsetToks (n : Nat) (text : Str) : chars (offsetToks n text) = text := by
  induction text generalizing n with
  | nil => rfl
  | cons c t ih => simp [offsetToks, ih]

theorem offsetToks_length (n : Nat) (text : Str) : (offsetToks n text).length = text.length := by
  rw [← chars_length, chars_offsetToks]

theorem offsetToks_get {n : Nat} {text : Str} {i : Nat} (h : i < text.length) :
    (offsetToks n text)[i]? = some (text[i], ⟨n + byteLen (text.take i), n + byteLen (text.take (i + 1))⟩) := by
  induction text generalizing n i with
  | nil => simp at h
  | cons c t ih =>
    cases i with
    | zero => simp [offsetToks, byteLen]
    | succ i =>
      simp only [List.length_cons] at h
      simp [offsetToks, ih (n := n + c.utf8Size) (i := i) (by omega), byteLen, Nat.add_assoc]

theorem offset_spf {text : Str} {i j : Nat} (hij : i < j) (hj : j ≤ text.length) :
    spf (offsetEoi text) (offsetToks 0 text) i j = byteSpan text i j := by
  have hl := offsetToks_length 0 text
  unfold spf spanSince byteSpan
  have h1 := offsetToks_get (n := 0) (text := text) (i := i) (by omega)
  have h2 := offsetToks_get (n := 0) (text := text) (i := j - 1) (by omega)
  have hd : (offsetToks 0 text).drop i = (text[i], ⟨0 + byteLen (text.take i), 0 + byteLen (text.take (i + 1))⟩) ::
      (offsetToks 0 text).drop (i + 1) := by
    rw [List.drop_eq_getElem_cons (by omega)]
    rw [List.getElem?_eq_getElem (by omega)] at h1
    rw [Option.some.injEq] at h1
    rw [h1]
  have he : ((offsetToks 0 text).drop i)[((offsetToks 0 text).drop i).length - ((offsetToks 0 text).drop j).length - 1]? =
      (offsetToks 0 text)[j - 1]? := by
    rw [List.getElem?_drop]
    congr 1
    simp only [List.length_drop]
    omega
  rw [he, h2]
  simp only
  rw [hd]
  have : j - 1 + 1 = j := by omega
  simp [this]

theorem spanRel_byte (text : Str) : SpanRel id (spf (offsetEoi text) (offsetToks 0 text)) (byteSpan text) 0 0 text.length := by
  intro i j i' j' _ h1 h2 h3 h4
  have : i' = i := by omega
  have : j' = j := by omega
  subst i' j'
  exact offset_spf h1 (by omega)

mutual
theorem node_mapSpan_id : ∀ n : Node S, n.mapSpan id = n
  | .mk ty name args props children => by
    have h1 : ty.map (Spanned.mapSpan id) = ty := by cases ty <;> rfl
    have h2 : args.map (Value.mapSpan id) = args := by
      rw [show (Value.mapSpan (id : S → S)) = id from funext fun v => by
        obtain ⟨t, l⟩ := v; cases t <;> rfl]; simp
    have h3 : mapProps id props = props := by
      unfold mapProps
      rw [show (fun kv : Spanned Str S × Value S => (kv.1.mapSpan id, kv.2.mapSpan id)) = id from funext fun v => by
        obtain ⟨k, t, l⟩ := v; cases t <;> rfl]; simp
    simp only [Node.mapSpan, h1, h2, h3, mapChildren_id children]
    rfl
theorem mapChildren_id : ∀ c : Option (Spanned (List (Spanned (Node S) S)) S), mapChildren id c = c
  | none => by rfl
  | some ⟨sp, l⟩ => by simp only [mapChildren, mapNodes_id l]; rfl
theorem mapNodes_id : ∀ l : List (Spanned (Node S) S), mapNodes id l = l
  | [] => by rfl
  | ⟨sp, n⟩ :: rest => by simp only [mapNodes, node_mapSpan_id n, mapNodes_id rest]; rfl
end

/-- The value of a legal tree that makes up a whole text, in byte spans. -/
theorem value_byte {str : Bool} {text : Str} {b : BodyC} (hok : b.Ok str []) (ht : b.text = text) :
    b.value (spf (offsetEoi text) (offsetToks 0 text)) 0 = b.value (byteSpan text) 0 := by
  rw [← mapNodes_id (b.value (spf _ _) 0)]
  exact body_map b (spanRel_byte text) (by rw [ht]; exact Nat.le_refl _) hok

theorem meaning_of_value {str : Bool} {f : Nat → Nat → S} {p : Nat} {b : BodyC} {fol} (hok : b.Ok str fol) :
    Document.erase ⟨b.value f p⟩ = b.meaning := by
  unfold Document.erase Document.mapSpan BodyC.meaning
  congr 1
  exact body_map (n := b.text.length) b (fun _ _ _ _ _ _ _ _ _ => rfl) (Nat.le_refl _) hok

/-! ### The entry point -/

theorem run_ok_iff {O : Type} [Offset O] {eoi : Sp O} {s : List (Tok O)} {d : Document (Sp O)} :
    runParser document eoi s = some (.ok d) ↔ Ok document eoi s d [] := by
  have hnp := document_np eoi s
  unfold runParser
  constructor
  · intro h
    simp only [hnp, Bool.false_eq_true, if_false] at h
    cases ho : (document eoi s).out with
    | error e => rw [ho] at h; simp at h
    | ok x =>
      rw [ho] at h
      simp only at h
      split at h
      · rename_i he
        simp only [Option.some.injEq, Except.ok.injEq] at h
        have hok : Ok document eoi s d (document eoi s).rest :=
          ⟨List.isEmpty_iff.1 he, ⟨x.2, by rw [ho, ← h]⟩, rfl⟩
        have := (document_sound hok).1
        rwa [this] at hok
      · simp at h
  · rintro ⟨h1, ⟨alt, h2⟩, h3⟩
    simp [hnp, h1, h2]

theorem parseAst_ok_iff {text : Str} {d : Document (Sp Nat)} :
    parseAst text = some (.ok d) ↔ Ok document (offsetEoi text) (offsetToks 0 text) d [] := run_ok_iff

theorem parse_sound {text : Str} {d : Document (Sp Nat)} (h : parseAst text = some (.ok d)) :
    ∃ b : BodyC, b.Ok false [] ∧ b.text = text ∧ d.nodes = b.value (byteSpan text) 0 := by
  obtain ⟨_, b, h1, h2, h3⟩ := document_sound (parseAst_ok_iff.1 h)
  rw [chars_offsetToks] at h2
  exact ⟨b, h1, h2, by rw [h3, value_byte h1 h2]⟩

theorem parse_complete {text : Str} (b : BodyC) (hok : b.Ok true []) (ht : b.text = text) :
    parseAst text = some (.ok ⟨b.value (byteSpan text) 0⟩) := by
  rw [parseAst_ok_iff]
  have := document_complete (eoi := offsetEoi text) (all := offsetToks 0 text) b hok (by rw [chars_offsetToks, ht])
  rwa [value_byte hok ht] at this

end Knuffel
