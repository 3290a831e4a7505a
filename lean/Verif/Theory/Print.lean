import Verif.Spec.Print
import Verif.Props.Literals
import Verif.Props.Layout
/-!
# Printed documents as concrete syntax trees
-/

namespace Knuffel
open Cst

/-! ### Strings -/

/-- The characters of a printed string. -/
def quoteL (s : Str) : List StrChar := s.map (fun c => if c = '"' ∨ c = '\\' then .esc c else .plain c)

theorem quoteL_text (s : Str) : quotedText (quoteL s) = printStr s := by
  have : (quoteL s).flatMap StrChar.text = s.flatMap printChar := by
    induction s with
    | nil => rfl
    | cons c s ih =>
      simp only [quoteL, List.map_cons, List.flatMap_cons, printChar] at ih ⊢
      rw [ih]
      by_cases h : c = '"' ∨ c = '\\'
      · rw [if_pos h, if_pos h]; rfl
      · rw [if_neg h, if_neg h]; rfl
  rw [quotedText, this, printStr]

theorem quoteL_value (s : Str) : (quoteL s).map StrChar.value = s := by
  induction s with
  | nil => rfl
  | cons c s ih =>
    simp only [quoteL, List.map_cons] at ih ⊢
    rw [ih]
    by_cases h : c = '"' ∨ c = '\\'
    · rw [if_pos h]
      rcases h with rfl | rfl <;> rfl
    · rw [if_neg h]; rfl

theorem quoteL_ok (s : Str) : ∀ c ∈ quoteL s, c.Ok := by
  intro x hx
  obtain ⟨c, -, rfl⟩ := List.mem_map.1 hx
  by_cases h : c = '"' ∨ c = '\\'
  · rw [if_pos h]
    rcases h with rfl | rfl <;> (unfold StrChar.Ok; decide)
  · rw [if_neg h]
    exact ⟨fun h1 => h (Or.inl h1), fun h1 => h (Or.inr h1)⟩

/-! ### Literals -/

theorem digitsOf_eq (r : Radix) : digitsOf r = Cst.radixDigits r := by cases r <;> decide

theorem digits_not {r : Radix} {c : Char} (h : c ∈ digitsOf r) : c ≠ '_' ∧ c ≠ '-' ∧ c ≠ '+' := by
  revert h; revert c
  cases r <;> decide

theorem strip_id {s : Str} (h : '_' ∉ s) : strip s = s := by
  unfold strip
  rw [List.filter_eq_self]
  intro c hc
  simp only [bne_iff_ne, ne_eq]
  rintro rfl
  exact h hc

theorem signed_cases {P : Str → Prop} {s : Str} (h : Signed P s) :
    ∃ (sg : Option Char) (t : Str), SignOk sg ∧ s = sg.toList ++ t ∧ P t := by
  rcases h with h | ⟨t, rfl | rfl, h⟩
  · exact ⟨none, s, Or.inl rfl, rfl, h⟩
  · exact ⟨some '-', t, Or.inr (Or.inr rfl), rfl, h⟩
  · exact ⟨some '+', t, Or.inr (Or.inl rfl), rfl, h⟩

theorem signed_mk {P : Str → Prop} {sg : Option Char} {t : Str} (h : SignOk sg) (ht : P t) : Signed P (sg.toList ++ t) := by
  rcases h with rfl | rfl | rfl
  · exact Or.inl ht
  · exact Or.inr ⟨t, Or.inr rfl, ht⟩
  · exact Or.inr ⟨t, Or.inl rfl, ht⟩

theorem printInt_eq {r : Radix} (hr : r ≠ .dec) {sg : Option Char} (hs : SignOk sg) {d : Char} {ds : Str} (hd : d ∈ digitsOf r) :
    printInt r (sg.toList ++ d :: ds) = sg.toList ++ '0' :: radixMark r :: d :: ds := by
  obtain ⟨-, h1, h2⟩ := digits_not hd
  have key : ∀ m, markAfterSign m (sg.toList ++ d :: ds) = sg.toList ++ m ++ d :: ds := by
    intro m
    rcases hs with rfl | rfl | rfl <;> simp [markAfterSign, h1, h2]
  cases r with
  | dec => exact absurd rfl hr
  | bin => simp [printInt, key, radixMark]
  | oct => simp [printInt, key, radixMark]
  | hex => simp [printInt, key, radixMark]

theorem sign_no_underscore {sg : Option Char} (h : SignOk sg) : '_' ∉ sg.toList := by
  rcases h with rfl | rfl | rfl <;> decide

theorem literal_cst (l : Literal) (h : l.Printable) : ∃ c : Lit, c.Ok ∧ c.text = printLiteral l ∧ c.value = l := by
  cases l with
  | null => exact ⟨.null, trivial, rfl, rfl⟩
  | bool b => cases b with
    | true => exact ⟨.bool true, trivial, rfl, rfl⟩
    | false => exact ⟨.bool false, trivial, rfl, rfl⟩
  | string s => exact ⟨.str (.quoted (quoteL s)), quoteL_ok s, quoteL_text s, congrArg Literal.string (quoteL_value s)⟩
  | int r ds =>
    obtain ⟨sg, t, hs, rfl, hne, ht⟩ := signed_cases h
    cases t with
    | nil => exact absurd rfl hne
    | cons d t =>
      have hd := ht d (by simp)
      have ht' : ∀ c ∈ t, c ∈ digitsOf r := fun c hc => ht c (by simp [hc])
      have hu : strip (d :: t) = d :: t := strip_id (fun h => (digits_not (ht _ h)).1 rfl)
      by_cases hr : r = .dec
      · subst hr
        refine ⟨.num (.dec sg d t none none), ⟨hs, ?_, fun c hc => ?_, by simp, by simp⟩, ?_, ?_⟩
        · have := hd; rw [digitsOf_eq] at this; exact this
        · have := ht' c hc; rw [digitsOf_eq] at this; exact Or.inl this
        · simp [Lit.text, Num.text, fracText, expText, printLiteral, printInt]
        · simp only [Lit.value, Num.value]
          rw [if_neg (by simp), strip_id]
          intro hm
          rcases List.mem_append.1 hm with hm | hm
          · exact sign_no_underscore hs hm
          · exact (digits_not (ht _ hm)).1 rfl
      · refine ⟨.num (.radix sg r d t), ⟨hs, hr, ?_, fun c hc => ?_⟩, ?_, ?_⟩
        · rw [← digitsOf_eq]; exact hd
        · rw [← digitsOf_eq]; exact Or.inl (ht' c hc)
        · exact (printInt_eq hr hs hd).symm
        · simp only [Lit.value, Num.value, hu]
  | decimal t =>
    have h : DecimalText t := h
    unfold DecimalText at h
    obtain ⟨sg, u, hs, rfl, a, f, e, rfl, ⟨ha0, ha⟩, hne, hf, he⟩ := signed_cases h
    cases a with
    | nil => exact absurd rfl ha0
    | cons d a =>
      obtain ⟨fr, hfr, hfr', hfu⟩ : ∃ fr, fracText fr = f ∧
          (∀ d' ds', fr = some (d', ds') → d' ∈ decDigits ∧ DigitsOk .dec ds') ∧ '_' ∉ f := by
        rcases hf with rfl | ⟨b, rfl, hb0, hb⟩
        · exact ⟨none, rfl, by simp, by simp⟩
        · cases b with
          | nil => exact absurd rfl hb0
          | cons x b =>
            refine ⟨some (x, b), rfl, ?_, ?_⟩
            · rintro _ _ h
              cases h
              exact ⟨hb _ (by simp), fun c hc => Or.inl (hb c (by simp [hc]))⟩
            · intro hm
              rcases List.mem_cons.1 hm with hm | hm
              · exact absurd hm (by decide)
              · exact (digits_not (hb _ hm)).1 rfl
      obtain ⟨ex, hex, hex', heu⟩ : ∃ ex, expText ex = e ∧
          (∀ e s' ds', ex = some (e, s', ds') → (e = 'e' ∨ e = 'E') ∧ SignOk s' ∧ DigitsOk .dec ds') ∧ '_' ∉ e := by
        rcases he with rfl | ⟨x, b, hx, rfl, hb⟩
        · exact ⟨none, rfl, by simp, by simp⟩
        · obtain ⟨sg', b, hs', rfl, hb'⟩ := signed_cases hb
          refine ⟨some (x, sg', b), rfl, ?_, ?_⟩
          · rintro _ _ _ h
            cases h
            exact ⟨hx, hs', fun c hc => Or.inl (hb' c hc)⟩
          · intro hm
            rcases List.mem_cons.1 hm with hm | hm
            · rcases hx with rfl | rfl <;> exact absurd hm (by decide)
            · rcases List.mem_append.1 hm with hm | hm
              · exact sign_no_underscore hs' hm
              · exact (digits_not (hb' _ hm)).1 rfl
      refine ⟨.num (.dec sg d a fr ex), ⟨hs, ha d (by simp), fun c hc => Or.inl (ha c (by simp [hc])), hfr', hex'⟩, ?_, ?_⟩
      · simp [Lit.text, Num.text, printLiteral, hfr, hex]
      · have hc : fr.isSome ∨ ex.isSome := by
          cases fr with
          | some x => exact Or.inl rfl
          | none =>
            cases ex with
            | some x => exact Or.inr rfl
            | none => exact absurd (by rw [← hfr, ← hex]; rfl) hne
        simp only [Lit.value, Num.value, if_pos hc, hfr, hex]
        rw [strip_id]
        · simp
        · intro hm
          simp only [List.mem_append] at hm
          rcases hm with ((hm | hm) | hm) | hm
          · exact sign_no_underscore hs hm
          · exact (digits_not (ha _ hm)).1 rfl
          · exact hfu hm
          · exact heu hm

/-! ### Values and entries -/

theorem type_cst {T : TypeName → Prop} (hT : ∀ t, T t → TypeName.fromString t.asStr = t) (ty : Option (Spanned TypeName Unit))
    (h : ∀ t, ty = some t → T t.value) :
    ∃ n : Option Name, TyOk n ∧ tyText n = printType ty ∧ n.map (fun t => (⟨(), TypeName.fromString t.value⟩ : Spanned TypeName Unit)) = ty := by
  cases ty with
  | none => exact ⟨none, trivial, rfl, rfl⟩
  | some t =>
    refine ⟨some (.quoted (quoteL t.value.asStr)), quoteL_ok _, ?_, ?_⟩
    · simp only [tyText, Name.text, quoteL_text, printType]
    · simp only [Option.map_some, Name.value, quoteL_value, hT _ (h t rfl)]

theorem value_cst {T : TypeName → Prop} (hT : ∀ t, T t → TypeName.fromString t.asStr = t) (v : Value Unit) (h : v.Printable T) :
    ∃ c : Val, c.Ok ∧ c.text = printValue v ∧ c.meaning = v := by
  obtain ⟨n, h1, h2, h3⟩ := type_cst hT v.typeName h.1
  obtain ⟨l, h4, h5, h6⟩ := literal_cst _ h.2
  refine ⟨⟨n, l⟩, ⟨h1, h4⟩, by simp only [Val.text, printValue, h2, h5], ?_⟩
  obtain ⟨ty, lit⟩ := v
  obtain ⟨⟨⟩, lit⟩ := lit
  simp only at h3
  subst h3
  simp only [Val.meaning, Val.value, h6]
  cases n <;> rfl

/-- An entry after one space. -/
def spaced (e : Entry) : Item := ⟨[.ws (.char ' ')], none, e⟩

theorem spaced_text (e : Entry) : (spaced e).text = ' ' :: e.text := by
  simp [spaced, Item.text, spacesText, Space.text, Ws.text, dashText]

theorem spaced_ok {e : Entry} {f : Str} (h : e.Ok) : (spaced e).Ok true f :=
  ⟨by simp [spaced], ⟨blank_ok, trivial⟩, trivial, h⟩

theorem args_cst {T : TypeName → Prop} (hT : ∀ t, T t → TypeName.fromString t.asStr = t) (l : List (Value Unit))
    (h : ∀ v ∈ l, v.Printable T) :
    ∃ c : List Item, (∀ f, ItemsOk true f c) ∧ itemsText c = printArgs l ∧ (writtenArgs c).map Val.meaning = l ∧ writtenProps c = [] := by
  induction l with
  | nil => exact ⟨[], fun _ => trivial, rfl, rfl, rfl⟩
  | cons v l ih =>
    obtain ⟨c, h1, h2, h3, h4⟩ := ih (fun w hw => h w (by simp [hw]))
    obtain ⟨w, h5, h6, h7⟩ := value_cst hT v (h v (by simp))
    refine ⟨spaced (.arg w) :: c, fun f => ⟨spaced_ok h5, h1 f⟩, ?_, ?_, ?_⟩
    · simp only [itemsText, List.flatMap_cons, spaced_text, printArgs] at h2 ⊢
      rw [h2, Entry.text, h6]
    · simp only [spaced, writtenArgs, List.map_cons, h3, h7]
    · simp only [spaced, writtenProps, h4]

theorem props_cst {T : TypeName → Prop} (hT : ∀ t, T t → TypeName.fromString t.asStr = t) (l : List (Spanned Str Unit × Value Unit))
    (h : ∀ kv ∈ l, kv.2.Printable T) :
    ∃ c : List Item, (∀ f, ItemsOk true f c) ∧ itemsText c = printProps l ∧ writtenArgs c = [] ∧
      (writtenProps c).map (fun kv => ((⟨(), kv.1.value⟩ : Spanned Str Unit), kv.2.meaning)) = l := by
  induction l with
  | nil => exact ⟨[], fun _ => trivial, rfl, rfl, rfl⟩
  | cons v l ih =>
    obtain ⟨c, h1, h2, h3, h4⟩ := ih (fun w hw => h w (by simp [hw]))
    obtain ⟨w, h5, h6, h7⟩ := value_cst hT v.2 (h v (by simp))
    refine ⟨spaced (.prop (.str (.quoted (quoteL v.1.value))) w) :: c, fun f => ⟨spaced_ok ⟨quoteL_ok _, h5⟩, h1 f⟩, ?_, ?_, ?_⟩
    · simp only [itemsText, List.flatMap_cons, spaced_text, printProps] at h2 ⊢
      rw [h2, Entry.text, h6, PropName.text, StrLit.text, quoteL_text]
      simp
    · simp only [spaced, writtenArgs, h3]
    · simp only [spaced, writtenProps, List.map_cons, h4, h7]
      obtain ⟨⟨⟨⟩, k⟩, v⟩ := v
      simp only [PropName.value, StrLit.value, quoteL_value]

theorem itemsOk_append {f : Str} {a b : List Item} (ha : ∀ f, ItemsOk true f a) (hb : ItemsOk true f b) : ItemsOk true f (a ++ b) := by
  suffices h : ItemsOk true (itemsText b ++ f) a → ItemsOk true f (a ++ b) from h (ha _)
  clear ha
  induction a with
  | nil => intro _; exact hb
  | cons x a ih =>
    rintro ⟨h1, h2⟩
    refine ⟨?_, ih h2⟩
    simpa [itemsText] using h1

theorem writtenArgs_append (a b : List Item) : writtenArgs (a ++ b) = writtenArgs a ++ writtenArgs b := by
  induction a with
  | nil => rfl
  | cons x a ih =>
    obtain ⟨s, d, e⟩ := x
    cases d with
    | some d => simpa [writtenArgs] using ih
    | none => cases e <;> simpa [writtenArgs] using ih

theorem writtenProps_append (a b : List Item) : writtenProps (a ++ b) = writtenProps a ++ writtenProps b := by
  induction a with
  | nil => rfl
  | cons x a ih =>
    obtain ⟨s, d, e⟩ := x
    cases d with
    | some d => simpa [writtenProps] using ih
    | none => cases e <;> simpa [writtenProps] using ih

/-! ### The property map -/

theorem propInsert_last {S : Type} {k : Spanned Str S} {v : Value S} {l : List (Spanned Str S × Value S)}
    (h : ∀ kv ∈ l, kv.1.value < k.value) : propInsert k v l = l ++ [(k, v)] := by
  induction l with
  | nil => rfl
  | cons x l ih =>
    obtain ⟨k', v'⟩ := x
    have hlt : strLt k'.value k.value = true := (strLt_iff _ _).2 (h (k', v') (by simp))
    have hne : ¬ k.value = k'.value := by
      intro he
      rw [he, strLt_irrefl] at hlt
      exact absurd hlt (by simp)
    have hnl : ¬ strLt k.value k'.value = true := by
      intro h2
      have := strLt_trans hlt h2
      rw [strLt_irrefl] at this
      exact absurd this (by simp)
    simp only [propInsert, if_neg hne, if_neg hnl, List.cons_append]
    rw [ih (fun kv hkv => h kv (by simp [hkv]))]

theorem propMap_id {S : Type} {l : List (Spanned Str S × Value S)} (h : (l.map (·.1.value)).Pairwise (· < ·)) : propMap l = l := by
  suffices hs : ∀ (l m : List (Spanned Str S × Value S)), ((m ++ l).map (·.1.value)).Pairwise (· < ·) →
      l.foldl (fun m kv => propInsert kv.1 kv.2 m) m = m ++ l by
    have := hs l [] (by simpa using h)
    simpa [propMap] using this
  intro l
  induction l with
  | nil => intro m _; simp
  | cons x l ih =>
    intro m h
    simp only [List.foldl_cons]
    rw [propInsert_last, ih]
    · simp
    · simpa using h
    · intro kv hkv
      rw [List.map_append, List.pairwise_append] at h
      exact h.2.2 _ (List.mem_map.2 ⟨kv, hkv, rfl⟩) _ (by simp)

/-! ### Nodes -/

theorem chr_nl_ok {f : Str} : Term.Ok f (.newline .lf) := trivial

mutual
theorem node_cst {T : TypeName → Prop} (hT : ∀ t, T t → TypeName.fromString t.asStr = t) (n : Node Unit) (h : n.Printable T) :
    ∃ c : NodeC, (∀ f, c.Ok true f) ∧ c.text = printNode n ∧ c.meaning = n := by
  match n with
  | .mk ty name args props children =>
    obtain ⟨h1, h2, h3, h4, h5⟩ := h
    obtain ⟨t, t1, t2, t3⟩ := type_cst hT ty h1
    obtain ⟨a, a1, a2, a3, a4⟩ := args_cst hT args h2
    obtain ⟨p, p1, p2, p3, p4⟩ := props_cst hT props h3
    obtain ⟨c, c1, c2, c3⟩ := children_cst hT children h5
    refine ⟨.mk t (.quoted (quoteL name.value)) (a ++ p) c [] (.newline .lf), ?_, ?_, ?_⟩
    · intro f
      exact ⟨t1, quoteL_ok _, by cases t <;> trivial, trivial, itemsOk_append a1 (p1 _), c1 _, trivial, trivial⟩
    · have : itemsText (a ++ p) = printArgs args ++ printProps props := by
        rw [← a2, ← p2]; simp [itemsText]
      simp only [NodeC.text, printNode, t2, c2, this, Name.text, quoteL_text, spacesText, Term.text, Newline.text]
      simp
    · rw [node_meaning]
      simp only [NodeC.ty, NodeC.name, NodeC.items, NodeC.children, t3, c3, writtenArgs_append, writtenProps_append, a4, p3,
        List.append_nil, List.nil_append, a3, p4]
      rw [propMap_id h4]
      obtain ⟨⟨⟩, name⟩ := name
      simp only [Name.value, quoteL_value]
theorem children_cst {T : TypeName → Prop} (hT : ∀ t, T t → TypeName.fromString t.asStr = t)
    (n : Option (Spanned (List (Spanned (Node Unit) Unit)) Unit)) (h : PrintableChildren T n) :
    ∃ c : ChildrenC, (∀ f, c.Ok true f) ∧ c.text = printChildren n ∧
      c.written.map (fun l => (⟨(), l.map (fun m => ⟨(), m.meaning⟩)⟩ : Spanned (List (Spanned (Node Unit) Unit)) Unit)) = n := by
  match n with
  | none => exact ⟨.none, fun _ => trivial, rfl, rfl⟩
  | some ⟨_, l⟩ =>
    obtain ⟨b, b1, b2, b3⟩ := nodes_cst hT l h
    refine ⟨.some [.ws (.char ' ')] none b, fun f => ⟨⟨blank_ok, trivial⟩, trivial, b1 _⟩, ?_, ?_⟩
    · simp only [ChildrenC.text, printChildren, b2, spacesText, dashText]
      simp [Space.text, Ws.text]
    · simp only [ChildrenC.written, Option.map_some, b3]
theorem nodes_cst {T : TypeName → Prop} (hT : ∀ t, T t → TypeName.fromString t.asStr = t) (l : List (Spanned (Node Unit) Unit))
    (h : PrintableNodes T l) :
    ∃ c : BodyC, (∀ f, c.Ok true f) ∧ c.text = printNodes l ∧ c.top.map (fun m => (⟨(), m.meaning⟩ : Spanned (Node Unit) Unit)) = l := by
  match l with
  | [] => exact ⟨.nil [], fun _ => trivial, rfl, rfl⟩
  | ⟨_, n⟩ :: rest =>
    obtain ⟨c, c1, c2, c3⟩ := node_cst hT n h.1
    obtain ⟨b, b1, b2, b3⟩ := nodes_cst hT rest h.2
    refine ⟨.cons [] none c b, fun f => ⟨trivial, trivial, c1 _, b1 _⟩, ?_, ?_⟩
    · simp only [BodyC.text, printNodes, c2, b2, linesText, dashText]
      simp
    · simp only [BodyC.top, List.map_cons, c3, b3]
end

theorem doc_cst {T : TypeName → Prop} (hT : ∀ t, T t → TypeName.fromString t.asStr = t) (d : Document Unit) (h : d.Printable T) :
    ∃ d', parseAst (printDoc d) = some (.ok d') ∧ d'.erase = d := by
  obtain ⟨b, b1, b2, b3⟩ := nodes_cst hT d.nodes h
  refine ⟨_, parse_complete b (b1 []) b2, (meaning_of_value (b1 [])).trans ?_⟩
  rw [BodyC.meaning]
  refine (congrArg Document.mk (body_top 0 _)).trans ?_
  rw [b3]

/-! ### Parsed documents can be printed -/

theorem strip_mem {c : Char} {s : Str} (h : c ∈ strip s) : c ∈ s ∧ c ≠ '_' := by
  simpa [strip] using h

theorem strip_append (a b : Str) : strip (a ++ b) = strip a ++ strip b := by simp [strip]

theorem strip_cons_digit {r : Radix} {d : Char} {ds : Str} (h : d ∈ Cst.radixDigits r) : strip (d :: ds) = d :: strip ds := by
  rw [← digitsOf_eq] at h
  have := (digits_not h).1
  simp [strip, this]

theorem strip_sign {sg : Option Char} (h : SignOk sg) : strip sg.toList = sg.toList := strip_id (sign_no_underscore h)

theorem digits1_strip {r : Radix} {d : Char} {ds : Str} (h : d ∈ Cst.radixDigits r) (hd : DigitsOk r ds) :
    Digits1 r (d :: strip ds) := by
  refine ⟨by simp, ?_⟩
  intro c hc
  rw [digitsOf_eq]
  rcases List.mem_cons.1 hc with rfl | hc
  · exact h
  · obtain ⟨h1, h2⟩ := strip_mem hc
    exact (hd c h1).resolve_right h2

theorem digits0_strip {ds : Str} (hd : DigitsOk .dec ds) : Digits0 (strip ds) := by
  intro c hc
  rw [digitsOf_eq]
  obtain ⟨h1, h2⟩ := strip_mem hc
  exact (hd c h1).resolve_right h2

theorem lit_printable (l : Lit) (h : l.Ok) : l.value.Printable := by
  cases l with
  | str s => trivial
  | null => trivial
  | bool b => trivial
  | num n =>
    cases n with
    | radix sg r d ds =>
      obtain ⟨h1, h2, h3, h4⟩ := h
      simp only [Lit.value, Num.value, Literal.Printable]
      rw [strip_cons_digit h3]
      exact signed_mk h1 (digits1_strip h3 h4)
    | dec sg d ds fr ex =>
      obtain ⟨h1, h2, h3, h4, h5⟩ := h
      have h2' : d ∈ Cst.radixDigits .dec := h2
      simp only [Lit.value, Num.value]
      by_cases hc : fr.isSome ∨ ex.isSome
      · rw [if_pos hc]
        simp only [List.append_assoc, List.cons_append, strip_append, strip_sign h1, Literal.Printable]
        refine signed_mk h1 ⟨d :: strip ds, strip (fracText fr), strip (expText ex), ?_, digits1_strip h2' h3, ?_, ?_, ?_⟩
        · rw [← List.cons_append, strip_append, strip_append, strip_cons_digit h2', List.append_assoc]
        · rcases hc with hc | hc
          · obtain ⟨⟨a, b⟩, rfl⟩ := Option.isSome_iff_exists.1 hc
            simp [fracText, strip]
          · obtain ⟨⟨a, b, c⟩, rfl⟩ := Option.isSome_iff_exists.1 hc
            rcases (h5 _ _ _ rfl).1 with rfl | rfl <;> simp [expText, strip]
        · cases fr with
          | none => exact Or.inl rfl
          | some x =>
            obtain ⟨a, b⟩ := x
            obtain ⟨h6, h7⟩ := h4 _ _ rfl
            refine Or.inr ⟨a :: strip b, ?_, digits1_strip (r := .dec) h6 h7⟩
            rw [← strip_cons_digit (r := .dec) h6]
            rfl
        · cases ex with
          | none => exact Or.inl rfl
          | some x =>
            obtain ⟨e, sg', b⟩ := x
            obtain ⟨h6, h7, h8⟩ := h5 _ _ _ rfl
            refine Or.inr ⟨e, sg'.toList ++ strip b, h6, ?_, signed_mk h7 (digits0_strip h8)⟩
            rw [← strip_sign h7, ← strip_append]
            rcases h6 with rfl | rfl <;> rfl
      · rw [if_neg hc]
        simp only [strip_append, strip_sign h1, strip_cons_digit h2', Literal.Printable]
        exact signed_mk h1 (digits1_strip h2' h3)

theorem readable_fromString (s : Str) : ReadableType (TypeName.fromString s) := by
  unfold TypeName.fromString
  cases h : BuiltinType.fromStr s with
  | none =>
    simp only [ReadableType]
    by_cases hs : s ∈ builtinTypeNames
    · left
      have : ∀ s ∈ builtinTypeNames, BuiltinType.fromStr s = none → s ∈ ["usize".toList, "isize".toList] := by decide
      exact this s hs h
    · exact Or.inr hs
  | some b =>
    simp only [ReadableType]
    have e := fromStr_some h
    subst e
    refine ⟨?_, ?_⟩ <;> rintro rfl <;> revert h <;> decide

theorem ty_printable {ty : Option Name} : ∀ t, ty.map (fun t => (⟨(), TypeName.fromString t.value⟩ : Spanned TypeName Unit)) = some t →
    ReadableType t.value := by
  intro t h
  cases ty with
  | none => simp at h
  | some n =>
    simp only [Option.map_some, Option.some.injEq] at h
    rw [← h]
    exact readable_fromString _

theorem val_printable {v : Val} (h : v.Ok) : v.meaning.Printable ReadableType := by
  obtain ⟨ty, l⟩ := v
  refine ⟨?_, lit_printable l h.2⟩
  intro t ht
  cases ty with
  | none => simp [Val.meaning, Val.value, tyValue] at ht
  | some n =>
    simp only [Val.meaning, Val.value, tyValue, Option.some.injEq] at ht
    rw [← ht]
    exact readable_fromString _

theorem items_vals {str : Bool} {f : Str} {l : List Item} (h : ItemsOk str f l) :
    (∀ v ∈ writtenArgs l, v.Ok) ∧ (∀ kv ∈ writtenProps l, kv.2.Ok) := by
  induction l with
  | nil => simp [writtenArgs, writtenProps]
  | cons x l ih =>
    obtain ⟨s, d, e⟩ := x
    obtain ⟨h1, h2⟩ := ih h.2
    have he : e.Ok := h.1.2.2.2
    cases d with
    | some d => exact ⟨by simpa [writtenArgs] using h1, by simpa [writtenProps] using fun a b hm => h2 (a, b) hm⟩
    | none =>
      cases e with
      | arg v => exact ⟨by simpa [writtenArgs] using ⟨he, h1⟩, by simpa [writtenProps] using fun a b hm => h2 (a, b) hm⟩
      | prop n v => exact ⟨by simpa [writtenArgs] using h1, by simpa [writtenProps] using ⟨he.2, fun a b hm => h2 (a, b) hm⟩⟩

theorem propInsert_mem {S : Type} {k : Spanned Str S} {v : Value S} {l : List (Spanned Str S × Value S)} :
    ∀ kv ∈ propInsert k v l, kv.2 = v ∨ ∃ kv' ∈ l, kv.2 = kv'.2 := by
  induction l with
  | nil => intro kv h; simp [propInsert] at h; exact Or.inl (by rw [h])
  | cons x l ih =>
    obtain ⟨k', v'⟩ := x
    intro kv h
    unfold propInsert at h
    split at h
    · rcases List.mem_cons.1 h with rfl | h
      · exact Or.inl rfl
      · exact Or.inr ⟨kv, by simp [h], rfl⟩
    · split at h
      · rcases List.mem_cons.1 h with rfl | h
        · exact Or.inl rfl
        · exact Or.inr ⟨kv, h, rfl⟩
      · rcases List.mem_cons.1 h with rfl | h
        · exact Or.inr ⟨_, by simp, rfl⟩
        · rcases ih kv h with h | ⟨kv', h1, h2⟩
          · exact Or.inl h
          · exact Or.inr ⟨kv', by simp [h1], h2⟩

theorem propMap_mem {S : Type} (l : List (Spanned Str S × Value S)) : ∀ kv ∈ propMap l, ∃ kv' ∈ l, kv.2 = kv'.2 := by
  suffices h : ∀ (l m : List (Spanned Str S × Value S)), ∀ kv ∈ l.foldl (fun m kv => propInsert kv.1 kv.2 m) m,
      (∃ kv' ∈ l, kv.2 = kv'.2) ∨ ∃ kv' ∈ m, kv.2 = kv'.2 by
    intro kv hkv
    rcases h l [] kv hkv with h | ⟨_, h, _⟩
    · exact h
    · simp at h
  intro l
  induction l with
  | nil => intro m kv h; exact Or.inr ⟨kv, h, rfl⟩
  | cons x l ih =>
    intro m kv h
    rcases ih _ kv h with ⟨kv', h1, h2⟩ | ⟨kv', h1, h2⟩
    · exact Or.inl ⟨kv', by simp [h1], h2⟩
    · rcases propInsert_mem kv' h1 with h3 | ⟨kv'', h3, h4⟩
      · exact Or.inl ⟨x, by simp, h2.trans h3⟩
      · exact Or.inr ⟨kv'', h3, h2.trans h4⟩

mutual
theorem node_printable {str : Bool} {f : Str} (n : NodeC) (h : n.Ok str f) : n.meaning.Printable ReadableType := by
  match n with
  | .mk ty name items children space term =>
    obtain ⟨h1, h2, h3, h4, h5, h6, h7, h8⟩ := h
    obtain ⟨ha, hp⟩ := items_vals h5
    rw [node_meaning]
    refine ⟨fun t ht => ty_printable (ty := ty) t ht, ?_, ?_, propMap_sorted _, ?_⟩
    · intro v hv
      obtain ⟨w, hw, rfl⟩ := List.mem_map.1 hv
      exact val_printable (ha w hw)
    · intro kv hkv
      obtain ⟨kv', h9, h10⟩ := propMap_mem _ kv hkv
      obtain ⟨x, hx, rfl⟩ := List.mem_map.1 h9
      rw [h10]
      exact val_printable (hp x hx)
    · exact children_printable children h6
theorem children_printable {str : Bool} {f : Str} (c : ChildrenC) (h : c.Ok str f) : PrintableChildren ReadableType
    (c.written.map (fun l => (⟨(), l.map (fun m => ⟨(), m.meaning⟩)⟩ : Spanned (List (Spanned (Node Unit) Unit)) Unit))) := by
  match c with
  | .none => trivial
  | .some _ (some _) _ => trivial
  | .some _ none body => exact body_printable body h.2.2
theorem body_printable {str : Bool} {f : Str} (b : BodyC) (h : b.Ok str f) :
    PrintableNodes ReadableType (b.top.map (fun m => (⟨(), m.meaning⟩ : Spanned (Node Unit) Unit))) := by
  match b with
  | .nil _ => trivial
  | .cons _ none node rest => exact ⟨node_printable node h.2.2.1, body_printable rest h.2.2.2⟩
  | .cons _ (some _) node rest => exact body_printable rest h.2.2.2
end

theorem parsed_printable {text : Str} {d : Document (Sp Nat)} (h : parseAst text = some (.ok d)) : d.erase.Printable ReadableType := by
  obtain ⟨b, h1, -, h3⟩ := sound_erase h
  rw [h3]
  show PrintableNodes _ (b.value (fun _ _ => ()) 0)
  have := body_top 0 b
  rw [show b.value (fun _ _ => ()) 0 = _ from this]
  exact body_printable b h1

theorem readable_roundtrip (t : TypeName) (h : ReadableType t) : TypeName.fromString t.asStr = t := by
  cases t with
  | builtin b => revert h; cases b <;> simp [ReadableType] <;> decide
  | custom s =>
    simp only [TypeName.asStr, TypeName.fromString]
    cases h' : BuiltinType.fromStr s with
    | none => rfl
    | some b =>
      exfalso
      have e := fromStr_some h'
      subst e
      revert h h'
      cases b <;> simp only [ReadableType] <;> decide

end Knuffel
