import Verif.Theory.CborFormat
import Verif.Spec.CborLater
/-!
# Reading documents with long heads and further fields
-/

namespace Knuffel
namespace Cbor

/-- Whatever has the form is read as `x`. -/
def Yields {α : Type} (p : Bytes → Prop) (dec : Dec α) (x : α) : Prop := ∀ bs, p bs → ∀ rest, dec (bs ++ rest) = some (x, rest)

theorem readBe_arg {k n : Nat} {arg : Bytes} (hl : arg.length = k) (hn : bigEndian arg = n) (rest : Bytes) :
    readBe k (arg ++ rest) = some (n, rest) := by
  subst hl hn
  unfold readBe
  rw [if_pos (by simp), List.take_left, List.drop_left, bigEndian_eq]

theorem anyHead_unsigned {major n : Nat} {h : Bytes} (hh : AnyHead major n h) :
    ∃ b arg, h = b :: arg ∧ b.toNat / 32 = major ∧ ∀ rest, unsigned (b.toNat % 32) (arg ++ rest) = some (n, rest) := by
  obtain ⟨b, arg, info, rfl, hb, hi⟩ := hh
  refine ⟨b, arg, rfl, by omega, fun rest => ?_⟩
  have hm : b.toNat % 32 = info := by omega
  rw [hm]
  unfold unsigned
  rcases hi with ⟨h1, rfl, rfl⟩ | ⟨rfl, h1, h2⟩ | ⟨rfl, h1, h2⟩ | ⟨rfl, h1, h2⟩ | ⟨rfl, h1, h2⟩
  · rw [if_pos h1]; rfl
  all_goals simpa using readBe_arg h1 h2 rest

theorem yields_head {major n : Nat} : Yields (AnyHead major n) (readHead major) n := by
  intro bs h rest
  obtain ⟨b, arg, rfl, hb, hu⟩ := anyHead_unsigned h
  rw [List.cons_append, readHead, if_pos hb, hu]

theorem anyHead_pos {major n : Nat} {h : Bytes} (hh : AnyHead major n h) : 1 ≤ h.length := by
  obtain ⟨b, arg, _, rfl, _⟩ := hh
  simp

/-! Passing over items -/

mutual
theorem skipLoop_item : ∀ {a : Bytes}, WellFormed a → ∃ k, 1 ≤ k ∧ k ≤ a.length ∧ ∀ fuel rounds rest,
    skipLoop (fuel + k) (rounds + 1) (a ++ rest) = skipLoop fuel rounds rest
  | _, .unsigned hh => by
    have := anyHead_pos hh
    obtain ⟨b, arg, rfl, hb, hu⟩ := anyHead_unsigned hh
    refine ⟨1, Nat.le_refl _, this, fun fuel rounds rest => ?_⟩
    rw [List.cons_append, skipLoop, hu]
    simp only [hb]
  | _, .negative hh => by
    have := anyHead_pos hh
    obtain ⟨b, arg, rfl, hb, hu⟩ := anyHead_unsigned hh
    refine ⟨1, Nat.le_refl _, this, fun fuel rounds rest => ?_⟩
    rw [List.cons_append, skipLoop, hu]
    simp only [hb]
  | _, .simple hh => by
    have := anyHead_pos hh
    obtain ⟨b, arg, rfl, hb, hu⟩ := anyHead_unsigned hh
    refine ⟨1, Nat.le_refl _, this, fun fuel rounds rest => ?_⟩
    rw [List.cons_append, skipLoop, hu]
    simp only [hb]
  | _, .bytes hh => by
    have := anyHead_pos hh
    obtain ⟨b, arg, rfl, hb, hu⟩ := anyHead_unsigned hh
    refine ⟨1, Nat.le_refl _, by rw [List.length_append]; omega, fun fuel rounds rest => ?_⟩
    rw [List.append_assoc, List.cons_append, skipLoop, hu]
    simp [hb]
  | _, .text hh => by
    have := anyHead_pos hh
    obtain ⟨b, arg, rfl, hb, hu⟩ := anyHead_unsigned hh
    refine ⟨1, Nat.le_refl _, by rw [List.length_append]; omega, fun fuel rounds rest => ?_⟩
    rw [List.append_assoc, List.cons_append, skipLoop, hu]
    simp [hb]
  | _, .array hh hs => by
    obtain ⟨k, hk, hstep⟩ := skipLoop_items hs
    have := anyHead_pos hh
    obtain ⟨b, arg, rfl, hb, hu⟩ := anyHead_unsigned hh
    refine ⟨k + 1, by omega, by rw [List.length_append]; omega, fun fuel rounds rest => ?_⟩
    rw [List.append_assoc, List.cons_append, ← Nat.add_assoc, skipLoop, hu]
    simp only [hb]
    exact hstep fuel rounds rest
  | _, .map hh hs => by
    obtain ⟨k, hk, hstep⟩ := skipLoop_items hs
    have := anyHead_pos hh
    obtain ⟨b, arg, rfl, hb, hu⟩ := anyHead_unsigned hh
    refine ⟨k + 1, by omega, by rw [List.length_append]; omega, fun fuel rounds rest => ?_⟩
    rw [List.append_assoc, List.cons_append, ← Nat.add_assoc, skipLoop, hu]
    simp only [hb]
    exact hstep fuel rounds rest
  | _, .tag hh hs => by
    obtain ⟨k, hk, hk', hstep⟩ := skipLoop_item hs
    have := anyHead_pos hh
    obtain ⟨b, arg, rfl, hb, hu⟩ := anyHead_unsigned hh
    refine ⟨k + 1, by omega, by rw [List.length_append]; omega, fun fuel rounds rest => ?_⟩
    rw [List.append_assoc, List.cons_append, ← Nat.add_assoc, skipLoop, hu]
    simp only [hb]
    exact hstep fuel rounds rest
theorem skipLoop_items : ∀ {n : Nat} {b : Bytes}, Sequence n b → ∃ k, k ≤ b.length ∧ ∀ fuel rounds rest,
    skipLoop (fuel + k) (rounds + n) (b ++ rest) = skipLoop fuel rounds rest
  | _, _, .nil => ⟨0, Nat.le_refl _, fun _ _ _ => rfl⟩
  | _, _, .cons ha hb => by
    obtain ⟨k, _, hk, h1⟩ := skipLoop_item ha
    obtain ⟨j, hj, h2⟩ := skipLoop_items hb
    refine ⟨j + k, by rw [List.length_append]; omega, fun fuel rounds rest => ?_⟩
    rw [List.append_assoc, ← Nat.add_assoc, ← Nat.add_assoc, h1, h2]
end

theorem skip_items {n : Nat} {b : Bytes} (h : Sequence n b) (rest : Bytes) : skip n (b ++ rest) = some rest := by
  obtain ⟨k, hk, hs⟩ := skipLoop_items h
  unfold skip
  have e : (b ++ rest).length + 1 = ((b ++ rest).length + 1 - k) + k := by rw [List.length_append]; omega
  rw [e]
  have := hs ((b ++ rest).length + 1 - k) 0 rest
  rw [Nat.zero_add] at this
  rw [this]
  cases (b ++ rest).length + 1 - k <;> cases rest <;> rfl

/-! Structs -/

theorem field_yes {α : Type} {n k : Nat} {dec : Dec α} {p : Bytes → Prop} {x : α} {bytes : Bytes} (hk : k < n) (h : Yields p dec x)
    (hp : p bytes) (rest : Bytes) : decField n k dec (bytes ++ rest) = some (some x, rest) := by
  unfold decField
  rw [if_pos hk, h _ hp]

theorem yields_struct1 {α : Type} {p0 : Bytes → Prop} {d0 : Dec α} {x : α} (h0 : Yields p0 d0 x) :
    Yields (Record [p0]) (decStruct1 d0) x := by
  rintro bs ⟨h, a, k, more, hh, ⟨b0, _, hb0, rfl, rfl⟩, hm, rfl⟩ rest
  simp only [List.append_assoc, List.nil_append, List.length_cons, List.length_nil] at hh ⊢
  unfold decStruct1
  rw [yields_head _ hh]
  simp only
  rw [field_yes (by omega) h0 hb0]
  simp only
  rw [show 0 + 1 + k - 1 = k by omega, skip_items hm]

theorem yields_struct2 {α β : Type} {p0 p1 : Bytes → Prop} {d0 : Dec α} {d1 : Dec β} {x : α} {y : β} (h0 : Yields p0 d0 x)
    (h1 : Yields p1 d1 y) : Yields (Record [p0, p1]) (decStruct2 d0 d1) (x, y) := by
  rintro bs ⟨h, a, k, more, hh, ⟨b0, _, hb0, ⟨b1, _, hb1, rfl, rfl⟩, rfl⟩, hm, rfl⟩ rest
  simp only [List.append_assoc, List.nil_append, List.length_cons, List.length_nil] at hh ⊢
  unfold decStruct2
  rw [yields_head _ hh]
  simp only
  rw [field_yes (by omega) h0 hb0]
  simp only
  rw [field_yes (by omega) h1 hb1]
  simp only
  rw [show 0 + 1 + 1 + k - 2 = k by omega, skip_items hm]

theorem yields_struct3 {α β γ : Type} {p0 p1 p2 : Bytes → Prop} {d0 : Dec α} {d1 : Dec β} {d2 : Dec γ} {x : α} {y : β} {z : γ}
    (h0 : Yields p0 d0 x) (h1 : Yields p1 d1 y) (h2 : Yields p2 d2 z) :
    Yields (Record [p0, p1, p2]) (decStruct3 d0 d1 d2) (x, y, z) := by
  rintro bs ⟨h, a, k, more, hh, ⟨b0, _, hb0, ⟨b1, _, hb1, ⟨b2, _, hb2, rfl, rfl⟩, rfl⟩, rfl⟩, hm, rfl⟩ rest
  simp only [List.append_assoc, List.nil_append, List.length_cons, List.length_nil] at hh ⊢
  unfold decStruct3
  rw [yields_head _ hh]
  simp only
  rw [field_yes (by omega) h0 hb0]
  simp only
  rw [field_yes (by omega) h1 hb1]
  simp only
  rw [field_yes (by omega) h2 hb2]
  simp only
  rw [show 0 + 1 + 1 + 1 + k - 3 = k by omega, skip_items hm]

theorem yields_opt1 {α β : Type} {p0 p1 : Bytes → Prop} {d0 : Dec α} {d1 : Dec β} {x : Option α} {y : β}
    (h0 : Yields p0 (decOption d0) x) (h1 : Yields p1 d1 y) : Yields (Record [p0, p1]) (decOpt1 d0 d1) (x, y) := by
  rintro bs ⟨h, a, k, more, hh, ⟨b0, _, hb0, ⟨b1, _, hb1, rfl, rfl⟩, rfl⟩, hm, rfl⟩ rest
  simp only [List.append_assoc, List.nil_append, List.length_cons, List.length_nil] at hh ⊢
  unfold decOpt1
  rw [yields_head _ hh]
  simp only
  rw [field_yes (by omega) h0 hb0]
  simp only
  rw [field_yes (by omega) h1 hb1]
  simp only
  rw [show 0 + 1 + 1 + k - 2 = k by omega, skip_items hm]
  rfl

theorem yields_map {α β : Type} {p : Bytes → Prop} {dec : Dec α} {x : α} (f : α → β) (h : Yields p dec x) :
    Yields p (fun bs => (dec bs).map fun (x, rest) => (f x, rest)) (f x) := by
  intro bs hp rest
  simp only [h bs hp, Option.map_some]

theorem record_cons {ps : List (Bytes → Prop)} {bs : Bytes} (h : Record ps bs) : ∃ b t, bs = b :: t ∧ b ≠ 0xf6 := by
  obtain ⟨h, a, k, more, hh, _, _, rfl⟩ := h
  obtain ⟨b, arg, rfl, hb, _⟩ := anyHead_unsigned hh
  refine ⟨b, _, rfl, ?_⟩
  rintro rfl
  exact absurd hb (by decide)

theorem yields_some {α : Type} {ps : List (Bytes → Prop)} {dec : Dec α} {x : α} (h : Yields (Record ps) dec x) :
    Yields (Record ps) (decOption dec) (some x) := by
  intro bs hp rest
  obtain ⟨b, t, rfl, hb⟩ := record_cons hp
  have := h _ hp rest
  rw [List.cons_append] at this ⊢
  rw [decOption, if_neg hb, this]

theorem yields_none {α : Type} (dec : Dec α) : Yields (fun bs => bs = [0xf6]) (decOption dec) none := by
  rintro _ rfl rest
  rfl

theorem yields_str (s : Str) : Yields (TextBytes s) decStr s := by
  rintro bs ⟨h, hh, rfl⟩ rest
  unfold decStr
  rw [List.append_assoc, yields_head _ hh]
  simp [fromUtf8_utf8]

theorem yields_typeName {t : TypeName} (h : TypeName.fromString t.asStr = t) : Yields (TextBytes t.asStr) decTypeName t := by
  intro bs hp rest
  unfold decTypeName
  rw [yields_str _ _ hp]
  simp [h]

theorem yields_u32 {n : Nat} (hn : n < 2 ^ 32) : Yields (AnyHead 0 n) decU32 n := by
  intro bs h rest
  unfold decU32
  rw [yields_head _ h]
  simp [hn]

theorem yields_radix (r : Radix) : Yields (RadixBytes r) decRadix r := by
  intro bs h rest
  unfold decRadix
  cases r <;> (rw [yields_u32 (by decide) _ h]; rfl)

theorem yields_items {α : Type} {p : α → Bytes → Prop} {dec : Dec α} {xs : List α} (h : ∀ x ∈ xs, Yields (p x) dec x) (a : Bytes)
    (ha : Each (xs.map p) a) (rest : Bytes) : decItems dec xs.length (a ++ rest) = some (xs, rest) := by
  induction xs generalizing a with
  | nil => cases ha; rfl
  | cons x xs ih =>
    obtain ⟨a, b, hx, hxs, rfl⟩ := ha
    rw [List.append_assoc, List.length_cons, decItems, h x List.mem_cons_self _ hx]
    simp only
    rw [ih (fun y hy => h y (List.mem_cons_of_mem _ hy)) b hxs]

variable {S : Type} {cs : Codec S} {span : S → Bytes → Prop}

theorem yields_spanned {α : Type} {p : Bytes → Prop} {dec : Dec α} {s : S} {x : α} (hs : Yields (span s) cs.dec s)
    (hv : Yields p dec x) : Yields (Record [span s, p]) (decSpanned cs dec) ⟨s, x⟩ :=
  yields_map (fun p : S × α => (⟨p.1, p.2⟩ : Spanned α S)) (yields_struct2 hs hv)

theorem yields_optType {t : Option (Spanned TypeName S)} (hs : ∀ x, t = some x → Yields (span x.span) cs.dec x.span ∧ GoodType x.value) :
    Yields (TypeBytes span t) (decOption (decSpanned cs decTypeName)) t := by
  cases t with
  | none => exact yields_none _
  | some x => exact yields_some (yields_spanned (hs x rfl).1 (yields_typeName (hs x rfl).2))

theorem yields_literal (l : Literal) : Yields (LiteralBytes l) decLiteral l := by
  intro bs hp rest
  unfold decLiteral
  cases l with
  | null =>
    obtain ⟨h, _, hh, ⟨b0, _, hb0, ⟨b1, _, hb1, rfl, rfl⟩, rfl⟩, rfl⟩ := hp
    simp only [List.append_assoc, List.nil_append]
    rw [yields_head _ hh]
    simp only
    rw [yields_u32 (by decide) _ hb0]
    simp only
    have := skip_items (.cons hb1 .nil) rest
    rw [List.append_nil] at this
    rw [this, Option.map_some]
  | bool b =>
    obtain ⟨h, _, hh, ⟨b0, _, hb0, ⟨b1, _, hb1, rfl, rfl⟩, rfl⟩, rfl⟩ := hp
    simp only [List.append_assoc, List.nil_append]
    rw [yields_head _ hh]
    simp only
    rw [yields_u32 (by decide) _ hb0]
    simp only
    rw [yields_struct1 (d0 := decBool) (x := b) (by rintro _ rfl rest; cases b <;> rfl) _ hb1, Option.map_some]
  | int r ds =>
    obtain ⟨h, _, hh, ⟨b0, _, hb0, ⟨b1, _, hb1, rfl, rfl⟩, rfl⟩, rfl⟩ := hp
    simp only [List.append_assoc, List.nil_append]
    rw [yields_head _ hh]
    simp only
    rw [yields_u32 (by decide) _ hb0]
    simp only
    rw [yields_struct1 (yields_struct2 (yields_radix r) (yields_str ds)) _ hb1, Option.map_some]
  | decimal s =>
    obtain ⟨h, _, hh, ⟨b0, _, hb0, ⟨b1, _, hb1, rfl, rfl⟩, rfl⟩, rfl⟩ := hp
    simp only [List.append_assoc, List.nil_append]
    rw [yields_head _ hh]
    simp only
    rw [yields_u32 (by decide) _ hb0]
    simp only
    rw [yields_struct1 (yields_str s) _ hb1, Option.map_some]
  | string s =>
    obtain ⟨h, _, hh, ⟨b0, _, hb0, ⟨b1, _, hb1, rfl, rfl⟩, rfl⟩, rfl⟩ := hp
    simp only [List.append_assoc, List.nil_append]
    rw [yields_head _ hh]
    simp only
    rw [yields_u32 (by decide) _ hb0]
    simp only
    rw [yields_struct1 (yields_str s) _ hb1, Option.map_some]

/-- The span is read, however it is written. -/
def Spans (cs : Codec S) (span : S → Bytes → Prop) (s : S) : Prop := Yields (span s) cs.dec s

theorem yields_value {v : Value S} (h : v.Meets (Spans cs span) GoodType) : Yields (ValueBytes span v) (decValue cs) v :=
  yields_map (fun p : Option (Spanned TypeName S) × Spanned Literal S => (⟨p.1, p.2⟩ : Value S))
    (yields_opt1 (yields_optType h.1) (yields_spanned h.2 (yields_literal _)))

theorem yields_args {args : List (Value S)} (h : ∀ v ∈ args, v.Meets (Spans cs span) GoodType) :
    Yields (ArgsBytes span args) (decVec (decValue cs)) args := by
  rintro bs ⟨hd, a, hh, ha, rfl⟩ rest
  unfold decVec
  rw [List.append_assoc, yields_head _ hh]
  exact yields_items (fun v hv => yields_value (h v hv)) a ha rest

theorem each_pairs {α : Type} {f g : α → Bytes → Prop} {xs : List α} {a : Bytes} (h : Each (xs.flatMap fun x => [f x, g x]) a) :
    Each (xs.map fun x bs => ∃ b c, f x b ∧ g x c ∧ bs = b ++ c) a := by
  induction xs generalizing a with
  | nil => exact h
  | cons x xs ih =>
    obtain ⟨b, _, hb, ⟨c, e, hc, he, rfl⟩, rfl⟩ := h
    exact ⟨b ++ c, e, ⟨b, c, hb, hc, rfl⟩, ih he, by rw [List.append_assoc]⟩

theorem yields_props {ps : List (Spanned Str S × Value S)}
    (h : ∀ kv ∈ ps, Spans cs span kv.1.span ∧ kv.2.Meets (Spans cs span) GoodType)
    (hs : (ps.map (·.1.value)).Pairwise (· < ·)) : Yields (PropsBytes span ps) (decProps cs) ps := by
  rintro bs ⟨hd, a, hh, ha, rfl⟩ rest
  unfold decProps
  rw [List.append_assoc, yields_head _ hh]
  simp only
  rw [yields_items (dec := decPair (decSpanned cs decStr) (decValue cs)) ?_ a (each_pairs ha) rest]
  · simp only [Option.some.injEq, Prod.mk.injEq, and_true]
    exact propMap_id hs
  · rintro kv hkv _ ⟨b, c, hb, hc, rfl⟩ rest
    unfold decPair
    rw [List.append_assoc, yields_spanned (h kv hkv).1 (yields_str _) _ hb]
    simp only
    rw [yields_value (h kv hkv).2 _ hc]

theorem record_length {ps : List (Bytes → Prop)} {bs : Bytes} (h : Record ps bs) :
    ∃ h' a more, bs = h' ++ (a ++ more) ∧ 1 ≤ h'.length ∧ Each ps a := by
  obtain ⟨h, a, k, more, hh, ha, _, rfl⟩ := h
  exact ⟨h, a, more, rfl, anyHead_pos hh, ha⟩

/-- The same, if the bytes are not more than `n`. -/
def YieldsIn {α : Type} (n : Nat) (p : Bytes → Prop) (dec : Dec α) (x : α) : Prop := Yields (fun bs => p bs ∧ bs.length ≤ n) dec x

/-- The bound is handed down to the fields. -/
theorem record_in {p q : Bytes → Prop} {n : Nat} {bs : Bytes} (h : Record [p, q] bs) (hl : bs.length ≤ n) :
    Record [p, fun b => q b ∧ b.length ≤ n] bs := by
  obtain ⟨h, a, k, more, hh, ⟨b0, _, hb0, ⟨b1, _, hb1, rfl, rfl⟩, rfl⟩, hm, rfl⟩ := h
  refine ⟨h, _, k, more, hh, ⟨b0, _, hb0, ⟨b1, _, ⟨hb1, ?_⟩, rfl, rfl⟩, rfl⟩, hm, rfl⟩
  simp only [List.length_append] at hl
  omega

theorem record_in1 {p : Bytes → Prop} {n : Nat} {bs : Bytes} (h : Record [p] bs) (hl : bs.length ≤ n) :
    Record [fun b => p b ∧ b.length ≤ n] bs := by
  obtain ⟨h, a, k, more, hh, ⟨b0, _, hb0, rfl, rfl⟩, hm, rfl⟩ := h
  refine ⟨h, _, k, more, hh, ⟨b0, _, ⟨hb0, ?_⟩, rfl, rfl⟩, hm, rfl⟩
  simp only [List.length_append] at hl
  omega

mutual
theorem yields_node (n : Node S) (h : n.Meets (Spans cs span) GoodType) (fuel : Nat) :
    YieldsIn fuel (NodeBytes span n) (decNode cs fuel) n := by
  obtain ⟨t, name, args, props, children⟩ := n
  unfold Node.Meets at h
  obtain ⟨ht, hn, ha, hp, hs, hc⟩ := h
  rintro bs ⟨hb, hf⟩ rest
  have hc' := yields_children children hc
  unfold NodeBytes at hb
  obtain ⟨hd, _, k, more, hh, ⟨b0, _, hb0, ⟨b1, _, hb1, ⟨b2, _, hb2, ⟨b3, _, hb3, rfl, rfl⟩, rfl⟩, rfl⟩, rfl⟩, hm, rfl⟩ := hb
  have hh' := anyHead_pos hh
  simp only [List.length_append] at hf
  cases fuel with
  | zero => omega
  | succ fuel =>
    unfold decNode
    simp only [List.append_assoc, List.nil_append]
    rw [yields_head _ hh]
    simp only
    rw [field_yes (by omega) (yields_optType ht) hb0]
    simp only
    rw [field_yes (by omega) (yields_spanned hn (yields_str _)) hb1]
    simp only
    rw [field_yes (by omega) (yields_args ha) hb2]
    simp only
    rw [field_yes (by omega) (yields_props hp hs) hb3]
    simp only
    cases children with
    | none =>
      unfold ChildrenBytes at hm
      rcases hm with ⟨rfl, rfl⟩ | ⟨j, more, rfl, hj, rfl⟩
      · rw [decField_no (by omega)]
        simp only [Nat.reduceSub, Nat.add_zero, skip_zero, List.nil_append, Option.join]
        rfl
      · have := field_yes (dec := decOption (decSpanned cs (decVec (decSpanned cs (decNode cs fuel))))) (n := 4 + (j + 1)) (k := 4)
          (by omega) (yields_none _) rfl (more ++ rest)
        simp only [List.cons_append, List.nil_append] at this ⊢
        rw [this]
        simp only [show 4 + (j + 1) - 5 = j by omega, skip_items hj, Option.join]
        rfl
    | some c =>
      obtain ⟨s, l⟩ := c
      obtain ⟨j, a, more', rfl, hra, hj, rfl⟩ : ∃ j a more', k = j + 1 ∧ ChildrenBytes span (some ⟨s, l⟩) 1 a ∧ Sequence j more' ∧
          more = a ++ more' := by
        unfold ChildrenBytes at hm
        obtain ⟨j, a, more', rfl, hra, hj, rfl⟩ := hm
        refine ⟨j, a, more', rfl, ?_, hj, rfl⟩
        unfold ChildrenBytes
        exact ⟨0, a, [], rfl, hra, .nil, by simp⟩
      rw [List.length_append] at hf
      rw [List.append_assoc, field_yes (by omega) (hc' fuel) ⟨⟨⟨s, l⟩, rfl⟩, hra, by omega⟩]
      simp only [show 4 + (j + 1) - 5 = j by omega, skip_items hj, Option.join]
      rfl
theorem yields_children (c : Option (Spanned (List (Spanned (Node S) S)) S)) (h : ChildrenMeet (Spans cs span) GoodType c) (fuel : Nat) :
    Yields (fun bs => (∃ x, c = some x) ∧ ChildrenBytes span c 1 bs ∧ bs.length ≤ fuel)
      (decOption (decSpanned cs (decVec (decSpanned cs (decNode cs fuel))))) c := by
  cases c with
  | none => rintro bs ⟨⟨x, hx⟩, _⟩; cases hx
  | some c =>
    obtain ⟨s, l⟩ := c
    unfold ChildrenMeet at h
    rintro bs ⟨_, hb, hf⟩ rest
    unfold ChildrenBytes at hb
    obtain ⟨j, a, more, hj, hra, hm, rfl⟩ := hb
    obtain rfl : j = 0 := by omega
    cases hm
    rw [List.append_nil] at hf ⊢
    refine yields_some (yields_spanned (cs := cs) h.1 ?_) a (record_in hra hf) rest
    rintro bs ⟨⟨hd, c, hh, hc, rfl⟩, hl⟩ rest
    rw [List.length_append] at hl
    unfold decVec
    rw [List.append_assoc, yields_head _ hh]
    exact yields_nodes l h.2 fuel c hc (by omega) rest
theorem yields_nodes (l : List (Spanned (Node S) S)) (h : NodesMeet (Spans cs span) GoodType l) (fuel : Nat)
    (c : Bytes) (hc : NodesBytes span l c) (hf : c.length ≤ fuel) (rest : Bytes) :
    decItems (decSpanned cs (decNode cs fuel)) l.length (c ++ rest) = some (l, rest) := by
  cases l with
  | nil => unfold NodesBytes at hc; subst hc; rfl
  | cons x l =>
    obtain ⟨s, n⟩ := x
    unfold NodesMeet at h
    unfold NodesBytes at hc
    obtain ⟨a, b, ha, hb, rfl⟩ := hc
    rw [List.length_append] at hf
    rw [List.append_assoc, List.length_cons, decItems,
      yields_spanned (cs := cs) h.1 (yields_node n h.2.1 fuel) a (record_in ha (by omega))]
    simp only
    rw [yields_nodes l h.2.2 fuel b hb (by omega) rest]
end

theorem yields_document {d : Document S} (h : d.Meets (Spans cs span) GoodType) : Yields (DocumentBytes span d) (decDocument cs) d := by
  obtain ⟨l⟩ := d
  intro bs hb rest
  unfold decDocument
  have key : Yields (fun b => (∃ h c, AnyHead 4 l.length h ∧ NodesBytes span l c ∧ b = h ++ c) ∧ b.length ≤ (bs ++ rest).length + 1)
      (decVec (decSpanned cs (decNode cs ((bs ++ rest).length + 1)))) l := by
    rintro _ ⟨⟨hd, c, hh, hc, rfl⟩, hl⟩ rest
    rw [List.length_append (as := hd) (bs := c)] at hl
    unfold decVec
    rw [List.append_assoc, yields_head _ hh]
    exact yields_nodes l h _ c hc (by omega) rest
  rw [yields_struct1 key bs (record_in1 hb (by rw [List.length_append]; omega)), Option.map_some]

theorem spans_span (s : Sp Nat) : Spans spanCodec SpanBytes s :=
  yields_map (fun p : Nat × Nat => (⟨p.1, p.2⟩ : Sp Nat)) (yields_struct2 yields_head yields_head)

theorem spans_pos (p : LinePos) : Yields (PosBytes p) decLinePos p :=
  yields_map (fun p : Nat × Nat × Nat => (⟨p.1, p.2.1, p.2.2⟩ : LinePos)) (yields_struct3 yields_head yields_head yields_head)

theorem spans_lineSpan (s : Sp LinePos) : Spans lineSpanCodec LineSpanBytes s :=
  yields_map (fun p : LinePos × LinePos => (⟨p.1, p.2⟩ : Sp LinePos)) (yields_struct2 (spans_pos _) (spans_pos _))

end Cbor
end Knuffel
