import Verif.Theory.Cbor
/-!
# The encoding is CBOR
-/

namespace Knuffel
namespace Cbor

theorem bigEndian_append (a : Bytes) (b : UInt8) : bigEndian (a ++ [b]) = bigEndian a * 256 + b.toNat := by
  induction a with
  | nil => simp [bigEndian]
  | cons x a ih =>
    simp only [List.cons_append, bigEndian, ih, List.length_append, List.length_cons, List.length_nil, Nat.zero_add, Nat.pow_succ]
    rw [Nat.add_mul, Nat.mul_assoc, Nat.add_assoc]

theorem bigEndian_eq (bs : Bytes) : bigEndian bs = unbe bs := by
  have : ∀ (n : Nat) (bs : Bytes), bs.length = n → bigEndian bs = unbe bs := by
    intro n
    induction n with
    | zero => intro bs h; cases bs with
      | nil => rfl
      | cons => simp at h
    | succ n ih =>
      intro bs h
      have hne : bs ≠ [] := by rintro rfl; simp at h
      obtain ⟨a, b, rfl⟩ : ∃ a b, bs = a ++ [b] := ⟨bs.dropLast, bs.getLast hne, (List.dropLast_concat_getLast hne).symm⟩
      rw [bigEndian_append, unbe_append, ih a (by simpa using h)]
  exact this _ bs rfl

theorem head_isHead {major n : Nat} (hm : major < 8) (hn : n < 2 ^ 64) : IsHead major n (head major n) := by
  have hb : ∀ i < 32, (UInt8.ofNat (major * 32 + i)).toNat = major * 32 + i := by
    intro i hi
    simp only [UInt8.toNat_ofNat']; omega
  unfold head
  split
  · exact ⟨_, _, n, rfl, hb _ (by omega), .inl ⟨by omega, rfl, rfl⟩⟩
  split
  · exact ⟨_, _, 24, rfl, hb _ (by omega), .inr <| .inl
      ⟨by omega, by omega, rfl, be_length _ _, by rw [bigEndian_eq, unbe_be _ _ (by omega)]⟩⟩
  split
  · exact ⟨_, _, 25, rfl, hb _ (by omega), .inr <| .inr <| .inl
      ⟨by omega, by omega, rfl, be_length _ _, by rw [bigEndian_eq, unbe_be _ _ (by omega)]⟩⟩
  split
  · exact ⟨_, _, 26, rfl, hb _ (by omega), .inr <| .inr <| .inr <| .inl
      ⟨by omega, by omega, rfl, be_length _ _, by rw [bigEndian_eq, unbe_be _ _ (by omega)]⟩⟩
  · exact ⟨_, _, 27, rfl, hb _ (by omega), .inr <| .inr <| .inr <| .inr
      ⟨by omega, by omega, rfl, be_length _ _, by rw [bigEndian_eq, unbe_be _ _ (by omega)]⟩⟩

/-- The bytes encode the item if they are not longer than can be. -/
def Writes (bytes : Bytes) (i : Item) : Prop := bytes.length < 2 ^ 64 → Encodes i bytes

theorem writes_str (s : Str) : Writes (encStr s) (.text s) := by
  intro h
  unfold encStr at h ⊢
  rw [List.length_append] at h
  exact .text (head_isHead (by omega) (by omega))

theorem writes_usize {n : Nat} (h : n < 2 ^ 64) : Writes (encUsize n) (.uint n) := fun _ => .uint (head_isHead (by omega) h)

theorem writes_bool (b : Bool) : Writes (encBool b) (.bool b) := by
  intro _
  cases b
  · exact .false
  · exact .true

theorem writes_radix (r : Radix) : Writes (encRadix r) (radixItem r) := by
  intro _
  cases r <;> exact .uint (head_isHead (by omega) (by decide))

/-- The fields of a struct, all of which are written. -/
inductive FieldsWrite : List Fld → List Item → Prop
  | nil : FieldsWrite [] []
  | cons {f fs i is} : Writes f.bytes i → FieldsWrite fs is → FieldsWrite (f :: fs) (i :: is)

theorem fieldsWrite_all {fs : List Fld} {is : List Item} (h : FieldsWrite fs is) (hl : (fs.flatMap Fld.bytes).length < 2 ^ 64) :
    EncodesAll is (fs.flatMap Fld.bytes) := by
  induction h with
  | nil => exact .nil
  | cons h1 h2 ih =>
    rw [List.flatMap_cons, List.length_append] at hl
    rw [List.flatMap_cons]
    exact .cons (h1 (by omega)) (ih (by omega))

theorem fieldsWrite_length {fs : List Fld} {is : List Item} (h : FieldsWrite fs is) : fs.length = is.length := by
  induction h with
  | nil => rfl
  | cons _ _ ih => simp [ih]

theorem writes_fields {fs : List Fld} {is : List Item} (hw : written fs = fs.length) (h : FieldsWrite fs is)
    (hs : fs.length < 2 ^ 64) : Writes (encFields fs) (.array is) := by
  intro hl
  rw [encFields_all hw] at hl ⊢
  rw [List.length_append] at hl
  exact .array (by rw [← fieldsWrite_length h]; exact head_isHead (by omega) hs) (fieldsWrite_all h (by omega))

theorem writes_two {a b : Bytes} {x y : Item} (ha : Writes a x) (hb : Writes b y) :
    Writes (encFields [⟨false, a⟩, ⟨false, b⟩]) (.array [x, y]) :=
  writes_fields rfl (.cons ha (.cons hb .nil)) (by simp)

theorem writes_one {a : Bytes} {x : Item} (ha : Writes a x) : Writes (encFields [⟨false, a⟩]) (.array [x]) :=
  writes_fields rfl (.cons ha .nil) (by simp)

theorem writes_literal (l : Literal) : Writes (encLiteral l) (literalItem l) := by
  have key : ∀ {idx bytes x}, idx < 2 ^ 64 → Writes bytes x → Writes (encVariant idx bytes) (.array [.uint idx, x]) := by
    intro idx bytes x hi hw hl
    unfold encVariant at hl ⊢
    simp only [List.length_append] at hl
    rw [List.append_assoc, show head 0 idx ++ bytes = head 0 idx ++ (bytes ++ []) by simp]
    exact .array (head_isHead (by omega) (by simp)) (.cons (.uint (head_isHead (by omega) hi)) (.cons (hw (by omega)) .nil))
  cases l with
  | null => exact key (by omega) fun _ => .array (l := []) (bs := []) (head_isHead (by omega) (by simp)) .nil
  | bool b => exact key (by omega) (writes_one (writes_bool b))
  | int r s => exact key (by omega) (writes_one (writes_two (writes_radix r) (writes_str s)))
  | decimal s => exact key (by omega) (writes_one (writes_str s))
  | string s => exact key (by omega) (writes_one (writes_str s))

variable {S : Type} {cs : Codec S} {span : S → Item}

theorem writes_type {t : Option (Spanned TypeName S)} (hs : ∀ x, t = some x → Writes (cs.enc x.span) (span x.span)) :
    Writes (encOption (encSpanned cs encTypeName) t) (typeItem span t) := by
  cases t with
  | none => exact fun _ => .null
  | some x => exact writes_two (hs x rfl) (writes_str _)

theorem writes_value {v : Value S} {Q : TypeName → Prop} (h : v.Meets (fun s => Writes (cs.enc s) (span s)) Q) :
    Writes (encValue cs v) (valueItem span v) :=
  writes_fields (by simp [written])
    (.cons (writes_type fun x hx => (h.1 x hx).1) (.cons (writes_two h.2 (writes_literal _)) .nil)) (by simp)

theorem writes_list {α : Type} {enc : α → Bytes} {item : α → Item} {xs : List α} (h : ∀ x ∈ xs, Writes (enc x) (item x))
    (hl : (xs.flatMap enc).length < 2 ^ 64) : EncodesAll (xs.map item) (xs.flatMap enc) := by
  induction xs with
  | nil => exact .nil
  | cons x xs ih =>
    rw [List.flatMap_cons, List.length_append] at hl
    rw [List.flatMap_cons, List.map_cons]
    exact .cons (h x List.mem_cons_self (by omega)) (ih (fun y hy => h y (List.mem_cons_of_mem _ hy)) (by omega))

theorem writes_vec {α : Type} {enc : α → Bytes} {item : α → Item} {xs : List α} (h : ∀ x ∈ xs, Writes (enc x) (item x))
    (hp : ∀ x ∈ xs, 1 ≤ (enc x).length) : Writes (encVec enc xs) (.array (xs.map item)) := by
  intro hl
  unfold encVec at hl ⊢
  rw [List.length_append] at hl
  have := flatMap_length hp
  exact .array (by rw [List.length_map]; exact head_isHead (by omega) (by omega)) (writes_list h (by omega))

theorem writes_entries {ps : List (Spanned Str S × Value S)} {Q : TypeName → Prop}
    (h : ∀ kv ∈ ps, Writes (cs.enc kv.1.span) (span kv.1.span) ∧ kv.2.Meets (fun s => Writes (cs.enc s) (span s)) Q)
    (hl : (ps.flatMap fun kv => encSpanned cs encStr kv.1 ++ encValue cs kv.2).length < 2 ^ 64) :
    EncodesEntries (ps.map fun kv => (spannedItem span kv.1.span (.text kv.1.value), valueItem span kv.2))
      (ps.flatMap fun kv => encSpanned cs encStr kv.1 ++ encValue cs kv.2) := by
  induction ps with
  | nil => exact .nil
  | cons kv ps ih =>
    simp only [List.flatMap_cons, List.length_append] at hl
    rw [List.flatMap_cons, List.map_cons, List.append_assoc]
    have := h kv List.mem_cons_self
    exact .cons (writes_two this.1 (writes_str _) (by unfold encSpanned at hl; omega)) (writes_value this.2 (by omega))
      (ih (fun y hy => h y (List.mem_cons_of_mem _ hy)) (by omega))

theorem writes_props {ps : List (Spanned Str S × Value S)} {Q : TypeName → Prop}
    (h : ∀ kv ∈ ps, Writes (cs.enc kv.1.span) (span kv.1.span) ∧ kv.2.Meets (fun s => Writes (cs.enc s) (span s)) Q) :
    Writes (encProps cs ps) (.map (ps.map fun kv => (spannedItem span kv.1.span (.text kv.1.value), valueItem span kv.2))) := by
  intro hl
  unfold encProps at hl ⊢
  rw [List.length_append] at hl
  have hp : ps.length ≤ _ := flatMap_length (enc := fun kv => encSpanned cs encStr kv.1 ++ encValue cs kv.2)
    fun kv _ => by have := encValue_pos (cs := cs) kv.2; rw [List.length_append]; omega
  exact .map (by rw [List.length_map]; exact head_isHead (by omega) (by omega)) (writes_entries h (by omega))

theorem nodeItems_length (l : List (Spanned (Node S) S)) : (nodeItems span l).length = l.length := by
  induction l with
  | nil => rfl
  | cons x l ih => obtain ⟨s, n⟩ := x; simp [nodeItems, ih]

mutual
theorem writes_node {Q : TypeName → Prop} (n : Node S) (h : n.Meets (fun s => Writes (cs.enc s) (span s)) Q) :
    Writes (encNode cs n) (nodeItem span n) := by
  obtain ⟨t, name, args, props, children⟩ := n
  unfold Node.Meets at h
  obtain ⟨ht, hn, ha, hp, _, hc⟩ := h
  unfold encNode nodeItem
  have h0 : Writes _ _ := writes_type (cs := cs) (span := span) fun x hx => (ht x hx).1
  have h1 : Writes _ _ := writes_two hn (writes_str name.value)
  have h2 : Writes _ _ := writes_vec (enc := encValue cs) (item := valueItem span) (fun v hv => writes_value (ha v hv)) fun v _ => encValue_pos v
  have h3 : Writes _ _ := writes_props hp
  cases children with
  | none =>
    intro hl
    have e : encFields [⟨t.isNone, encOption (encSpanned cs encTypeName) t⟩, ⟨false, encSpanned cs encStr name⟩,
        ⟨false, encVec (encValue cs) args⟩, ⟨false, encProps cs props⟩,
        ⟨(none : Option (Spanned (List (Spanned (Node S) S)) S)).isNone, encChildren cs none⟩] =
      encFields [⟨t.isNone, encOption (encSpanned cs encTypeName) t⟩, ⟨false, encSpanned cs encStr name⟩,
        ⟨false, encVec (encValue cs) args⟩, ⟨false, encProps cs props⟩] := by
      simp [encFields, written]
    rw [e] at hl ⊢
    exact writes_fields (by simp [written]) (.cons h0 (.cons h1 (.cons h2 (.cons h3 .nil)))) (by simp) hl
  | some c =>
    obtain ⟨s, l⟩ := c
    unfold ChildrenMeet at hc
    have h4 : Writes (encChildren cs (some ⟨s, l⟩)) (spannedItem span s (.array (nodeItems span l))) := by
      unfold encChildren
      refine writes_two hc.1 ?_
      intro hl
      rw [List.length_append] at hl
      have := encNodes_length (cs := cs) l
      exact .array (by rw [nodeItems_length]; exact head_isHead (by omega) (by omega)) (writes_nodes l hc.2 (by omega))
    unfold childrenItem
    exact writes_fields (by simp [written]) (.cons h0 (.cons h1 (.cons h2 (.cons h3 (.cons h4 .nil))))) (by simp)
theorem writes_nodes {Q : TypeName → Prop} (l : List (Spanned (Node S) S))
    (h : NodesMeet (fun s => Writes (cs.enc s) (span s)) Q l) (hl : (encNodes cs l).length < 2 ^ 64) :
    EncodesAll (nodeItems span l) (encNodes cs l) := by
  cases l with
  | nil => exact .nil
  | cons x l =>
    obtain ⟨s, n⟩ := x
    unfold NodesMeet at h
    unfold encNodes at hl ⊢
    unfold nodeItems
    rw [List.length_append] at hl
    exact .cons (writes_two h.1 (writes_node n h.2.1) (by omega)) (writes_nodes l h.2.2 (by omega))
end

theorem writes_document {Q : TypeName → Prop} {d : Document S} (h : d.Meets (fun s => Writes (cs.enc s) (span s)) Q) :
    Writes (encDocument cs d) (documentItem span d) := by
  refine writes_one ?_
  intro hl
  rw [List.length_append] at hl
  have := encNodes_length (cs := cs) d.nodes
  exact .array (by rw [nodeItems_length]; exact head_isHead (by omega) (by omega)) (writes_nodes d.nodes h (by omega))

theorem writes_span {s : Sp Nat} (h : s.Usize) : Writes (spanCodec.enc s) (spanItem s) :=
  writes_two (writes_usize h.1) (writes_usize h.2)

theorem writes_pos {p : LinePos} (h : p.Usize) : Writes (encLinePos p) (posItem p) :=
  writes_fields rfl (.cons (writes_usize h.1) (.cons (writes_usize h.2.1) (.cons (writes_usize h.2.2) .nil))) (by simp)

theorem writes_lineSpan {s : Sp LinePos} (h : s.LineUsize) : Writes (lineSpanCodec.enc s) (lineSpanItem s) :=
  writes_two (writes_pos h.1) (writes_pos h.2)

end Cbor
end Knuffel
