import Verif.Model.Cbor
import Verif.Theory.Print
import Verif.Spec.Cbor
/-!
# Reading back what was written
-/

namespace Knuffel
namespace Cbor

theorem be_length (k n : Nat) : (be k n).length = k := by
  induction k generalizing n with
  | zero => rfl
  | succ k ih => simp [be, ih]

theorem unbe_append (a : Bytes) (b : UInt8) : unbe (a ++ [b]) = unbe a * 256 + b.toNat := by
  simp [unbe]

theorem unbe_be (k n : Nat) (h : n < 256 ^ k) : unbe (be k n) = n := by
  induction k generalizing n with
  | zero => simp at h; subst h; rfl
  | succ k ih =>
    rw [be, unbe_append, ih]
    · have : (UInt8.ofNat (n % 256)).toNat = n % 256 := by simp
      rw [this]; omega
    · rw [Nat.pow_succ] at h; omega

theorem readBe_be (k n : Nat) (h : n < 256 ^ k) (rest : Bytes) : readBe k (be k n ++ rest) = some (n, rest) := by
  unfold readBe
  rw [if_pos (by simp [be_length])]
  rw [List.take_left' (be_length k n), List.drop_left' (be_length k n), unbe_be k n h]

theorem firstByte {major i : Nat} (hm : major < 8) (hi : i < 32) :
    (UInt8.ofNat (major * 32 + i)).toNat / 32 = major ∧ (UInt8.ofNat (major * 32 + i)).toNat % 32 = i := by
  have : (UInt8.ofNat (major * 32 + i)).toNat = major * 32 + i := by
    simp only [UInt8.toNat_ofNat']; omega
  rw [this]; omega

theorem readHead_first {major i : Nat} (hm : major < 8) (hi : i < 32) (bs : Bytes) :
    readHead major (UInt8.ofNat (major * 32 + i) :: bs) = unsigned i bs := by
  obtain ⟨h1, h2⟩ := firstByte hm hi
  rw [readHead, if_pos h1, h2]

theorem readHead_head {major n : Nat} (hm : major < 8) (hn : n < 2 ^ 64) (rest : Bytes) :
    readHead major (head major n ++ rest) = some (n, rest) := by
  unfold head
  split
  · rw [List.cons_append, readHead_first hm (by omega)]
    simp [unsigned, *]
  split
  · rw [List.cons_append, readHead_first hm (by omega)]
    simp [unsigned, readBe_be 1 n (by omega)]
  split
  · rw [List.cons_append, readHead_first hm (by omega)]
    simp [unsigned, readBe_be 2 n (by omega)]
  split
  · rw [List.cons_append, readHead_first hm (by omega)]
    simp [unsigned, readBe_be 4 n (by omega)]
  · rw [List.cons_append, readHead_first hm (by omega)]
    simp [unsigned, readBe_be 8 n (by omega)]

theorem head_length (major n : Nat) : 1 ≤ (head major n).length := by
  unfold head
  (repeat' split) <;> simp

theorem head_cons (major n : Nat) (hm : major < 7) : ∃ b bs, head major n = b :: bs ∧ b ≠ 0xf6 := by
  have : ∀ i < 32, UInt8.ofNat (major * 32 + i) ≠ 0xf6 := by
    intro i hi h
    have := (firstByte (i := i) (by omega : major < 8) hi).1
    rw [h] at this
    have : (0xf6 : UInt8).toNat / 32 = 7 := by decide
    omega
  unfold head
  (repeat' split) <;> exact ⟨_, _, rfl, this _ (by omega)⟩

/-- `dec` reads back `x` if its encoding is not longer than can be. -/
def Reads {α : Type} (bytes : Bytes) (dec : Dec α) (x : α) : Prop :=
  bytes.length < 2 ^ 64 → ∀ rest, dec (bytes ++ rest) = some (x, rest)

theorem utf8_encode (s : Str) : (⟨(utf8 s).toArray⟩ : ByteArray) = List.utf8Encode s := by
  unfold utf8 List.utf8Encode
  apply ByteArray.ext
  simp

theorem fromUtf8_utf8 (s : Str) : fromUtf8 (utf8 s) = some s := by
  unfold fromUtf8
  rw [utf8_encode, List.utf8Decode?_utf8Encode]
  simp

theorem reads_str (s : Str) : Reads (encStr s) decStr s := by
  intro h rest
  unfold encStr at h ⊢
  rw [List.length_append] at h
  unfold decStr
  rw [List.append_assoc, readHead_head (by omega) (by omega)]
  simp [fromUtf8_utf8]

theorem reads_usize {n : Nat} (h : n < 2 ^ 64) : Reads (encUsize n) decUsize n :=
  fun _ rest => readHead_head (by omega) h rest

theorem decU32_head {n : Nat} (h : n < 2 ^ 32) (rest : Bytes) : decU32 (head 0 n ++ rest) = some (n, rest) := by
  unfold decU32
  rw [readHead_head (by omega) (by omega)]
  simp [h]

theorem reads_bool (b : Bool) : Reads (encBool b) decBool b := by
  intro _ rest
  cases b <;> rfl

theorem reads_radix (r : Radix) : Reads (encRadix r) decRadix r := by
  intro _ rest
  unfold encRadix decRadix
  rw [decU32_head (by cases r <;> decide)]
  cases r <;> rfl

theorem reads_typeName {t : TypeName} (h : TypeName.fromString t.asStr = t) : Reads (encTypeName t) decTypeName t := by
  intro hl rest
  unfold decTypeName
  rw [show encTypeName t = encStr t.asStr from rfl, reads_str _ hl]
  simp [h]

/-! Structs -/

theorem skip_zero (bs : Bytes) : skip 0 bs = some bs := by
  unfold skip
  cases bs <;> rfl

theorem encFields_all {fs : List Fld} (h : written fs = fs.length) :
    encFields fs = head 4 fs.length ++ fs.flatMap Fld.bytes := by
  unfold encFields
  rw [h, List.take_length]

theorem decField_yes {α : Type} {n k : Nat} {dec : Dec α} {bytes : Bytes} {x : α} (hk : k < n) (h : Reads bytes dec x)
    (hl : bytes.length < 2 ^ 64) (rest : Bytes) : decField n k dec (bytes ++ rest) = some (some x, rest) := by
  unfold decField
  rw [if_pos hk, h hl]

theorem reads_struct1 {α : Type} {b0 : Bytes} {d0 : Dec α} {x : α} (h0 : Reads b0 d0 x) :
    Reads (encFields [⟨false, b0⟩]) (decStruct1 d0) x := by
  intro hl rest
  rw [encFields_all rfl] at hl ⊢
  simp only [List.flatMap_cons, List.flatMap_nil, List.append_nil, List.length_append, List.length_cons, List.length_nil,
    Nat.zero_add] at hl
  unfold decStruct1
  simp only [List.flatMap_cons, List.flatMap_nil, List.append_nil, List.append_assoc, List.length_cons, List.length_nil,
    Nat.zero_add]
  rw [readHead_head (by omega) (by omega)]
  simp only
  rw [decField_yes (by omega) h0 (by omega)]
  simp only [Nat.reduceSub, skip_zero]

theorem reads_struct2 {α β : Type} {b0 b1 : Bytes} {d0 : Dec α} {d1 : Dec β} {x : α} {y : β} (h0 : Reads b0 d0 x)
    (h1 : Reads b1 d1 y) : Reads (encFields [⟨false, b0⟩, ⟨false, b1⟩]) (decStruct2 d0 d1) (x, y) := by
  intro hl rest
  rw [encFields_all rfl] at hl ⊢
  simp only [List.flatMap_cons, List.flatMap_nil, List.append_nil, List.length_append, List.length_cons, List.length_nil,
    Nat.zero_add] at hl
  unfold decStruct2
  simp only [List.flatMap_cons, List.flatMap_nil, List.append_nil, List.append_assoc, List.length_cons, List.length_nil,
    Nat.zero_add, Nat.reduceAdd]
  rw [readHead_head (by omega) (by omega)]
  simp only
  rw [decField_yes (by omega) h0 (by omega)]
  simp only
  rw [decField_yes (by omega) h1 (by omega)]
  simp only [Nat.reduceSub, skip_zero]

theorem reads_struct3 {α β γ : Type} {b0 b1 b2 : Bytes} {d0 : Dec α} {d1 : Dec β} {d2 : Dec γ} {x : α} {y : β} {z : γ}
    (h0 : Reads b0 d0 x) (h1 : Reads b1 d1 y) (h2 : Reads b2 d2 z) :
    Reads (encFields [⟨false, b0⟩, ⟨false, b1⟩, ⟨false, b2⟩]) (decStruct3 d0 d1 d2) (x, y, z) := by
  intro hl rest
  rw [encFields_all rfl] at hl ⊢
  simp only [List.flatMap_cons, List.flatMap_nil, List.append_nil, List.length_append, List.length_cons, List.length_nil,
    Nat.zero_add] at hl
  unfold decStruct3
  simp only [List.flatMap_cons, List.flatMap_nil, List.append_nil, List.append_assoc, List.length_cons, List.length_nil,
    Nat.zero_add, Nat.reduceAdd]
  rw [readHead_head (by omega) (by omega)]
  simp only
  rw [decField_yes (by omega) h0 (by omega)]
  simp only
  rw [decField_yes (by omega) h1 (by omega)]
  simp only
  rw [decField_yes (by omega) h2 (by omega)]
  simp only [Nat.reduceSub, skip_zero]

theorem reads_map {α β : Type} {bytes : Bytes} {dec : Dec α} {x : α} (f : α → β) (h : Reads bytes dec x) :
    Reads bytes (fun bs => (dec bs).map fun (x, rest) => (f x, rest)) (f x) := by
  intro hl rest
  simp only [h hl, Option.map_some]

theorem encFields_cons (fs : List Fld) : ∃ b bs, encFields fs = b :: bs ∧ b ≠ 0xf6 := by
  obtain ⟨b, bs, h, hb⟩ := head_cons 4 (written fs) (by omega)
  exact ⟨b, bs ++ (fs.take (written fs)).flatMap Fld.bytes, by rw [encFields, h]; rfl, hb⟩

theorem encFields_pos (fs : List Fld) : 1 ≤ (encFields fs).length := by
  obtain ⟨b, bs, h, _⟩ := encFields_cons fs
  rw [h]; simp

theorem reads_some {α : Type} {bytes : Bytes} {dec : Dec α} {x : α} (h : Reads bytes dec x)
    (hb : ∃ b bs, bytes = b :: bs ∧ b ≠ 0xf6) : Reads bytes (decOption dec) (some x) := by
  intro hl rest
  obtain ⟨b, bs, rfl, hb⟩ := hb
  rw [List.cons_append, decOption, if_neg hb, ← List.cons_append, h hl]

theorem reads_none {α : Type} (dec : Dec α) : Reads [0xf6] (decOption dec) none := by
  intro _ rest
  rfl

theorem reads_items {α : Type} {enc : α → Bytes} {dec : Dec α} {xs : List α} (h : ∀ x ∈ xs, Reads (enc x) dec x)
    (hl : (xs.flatMap enc).length < 2 ^ 64) (rest : Bytes) :
    decItems dec xs.length (xs.flatMap enc ++ rest) = some (xs, rest) := by
  induction xs with
  | nil => rfl
  | cons x xs ih =>
    rw [List.flatMap_cons, List.length_append] at hl
    rw [List.flatMap_cons, List.append_assoc, List.length_cons, decItems,
      h x List.mem_cons_self (by omega)]
    simp only
    rw [ih (fun y hy => h y (List.mem_cons_of_mem _ hy)) (by omega)]

theorem flatMap_length {α : Type} {enc : α → Bytes} {xs : List α} (h : ∀ x ∈ xs, 1 ≤ (enc x).length) :
    xs.length ≤ (xs.flatMap enc).length := by
  induction xs with
  | nil => simp
  | cons x xs ih =>
    have := ih fun y hy => h y (List.mem_cons_of_mem _ hy)
    have := h x List.mem_cons_self
    simp only [List.flatMap_cons, List.length_append, List.length_cons]
    omega

theorem reads_vec {α : Type} {enc : α → Bytes} {dec : Dec α} {xs : List α} (h : ∀ x ∈ xs, Reads (enc x) dec x)
    (hp : ∀ x ∈ xs, 1 ≤ (enc x).length) : Reads (encVec enc xs) (decVec dec) xs := by
  intro hl rest
  unfold encVec at hl ⊢
  rw [List.length_append] at hl
  have := flatMap_length hp
  unfold decVec
  rw [List.append_assoc, readHead_head (by omega) (by omega)]
  exact reads_items h (by omega) rest

variable {S : Type} {cs : Codec S}

theorem reads_spanned {α : Type} {enc : α → Bytes} {dec : Dec α} {x : Spanned α S} (hs : Reads (cs.enc x.span) cs.dec x.span)
    (hv : Reads (enc x.value) dec x.value) : Reads (encSpanned cs enc x) (decSpanned cs dec) x :=
  reads_map (fun p : S × α => (⟨p.1, p.2⟩ : Spanned α S)) (reads_struct2 hs hv)

theorem encVariant_read {idx : Nat} {bytes : Bytes} (rest : Bytes) :
    readHead 4 (encVariant idx bytes ++ rest) = some (2, head 0 idx ++ (bytes ++ rest)) := by
  unfold encVariant
  rw [List.append_assoc, List.append_assoc, readHead_head (by omega) (by omega)]

theorem reads_literal (l : Literal) : Reads (encLiteral l) decLiteral l := by
  intro hl rest
  have key : ∀ idx bytes, encLiteral l = encVariant idx bytes → bytes.length < 2 ^ 64 := by
    intro idx bytes h
    rw [h, encVariant, List.length_append] at hl
    omega
  cases l with
  | null =>
    unfold decLiteral encLiteral
    rw [encVariant_read]
    simp only
    rw [decU32_head (by omega)]
    rfl
  | bool b =>
    have := reads_struct1 (reads_bool b) (key 1 _ rfl) rest
    unfold decLiteral encLiteral
    rw [encVariant_read]
    simp only
    rw [decU32_head (by omega)]
    simp only [this, Option.map_some]
  | int r s =>
    have := reads_struct1 (reads_struct2 (reads_radix r) (reads_str s)) (key 2 _ rfl) rest
    unfold decLiteral encLiteral
    rw [encVariant_read]
    simp only
    rw [decU32_head (by omega)]
    simp only [this, Option.map_some]
  | decimal s =>
    have := reads_struct1 (reads_str s) (key 3 _ rfl) rest
    unfold decLiteral encLiteral
    rw [encVariant_read]
    simp only
    rw [decU32_head (by omega)]
    simp only [this, Option.map_some]
  | string s =>
    have := reads_struct1 (reads_str s) (key 4 _ rfl) rest
    unfold decLiteral encLiteral
    rw [encVariant_read]
    simp only
    rw [decU32_head (by omega)]
    simp only [this, Option.map_some]

theorem reads_opt1 {α β : Type} {nil : Bool} {b0 b1 : Bytes} {d0 : Dec α} {d1 : Dec β} {x : Option α} {y : β}
    (h0 : Reads b0 (decOption d0) x) (h1 : Reads b1 d1 y) :
    Reads (encFields [⟨nil, b0⟩, ⟨false, b1⟩]) (decOpt1 d0 d1) (x, y) := by
  intro hl rest
  rw [encFields_all (by simp [written])] at hl ⊢
  simp only [List.flatMap_cons, List.flatMap_nil, List.append_nil, List.length_append, List.length_cons, List.length_nil,
    Nat.zero_add] at hl
  unfold decOpt1
  simp only [List.flatMap_cons, List.flatMap_nil, List.append_nil, List.append_assoc, List.length_cons, List.length_nil,
    Nat.zero_add, Nat.reduceAdd]
  rw [readHead_head (by omega) (by omega)]
  simp only
  rw [decField_yes (by omega) h0 (by omega)]
  simp only
  rw [decField_yes (by omega) h1 (by omega)]
  simp only [Nat.reduceSub, skip_zero, Option.join]
  rfl

/-- The optional type name of a node or value. -/
theorem reads_optType {t : Option (Spanned TypeName S)} (hs : ∀ x ∈ t, Reads (cs.enc x.span) cs.dec x.span)
    (ht : ∀ x ∈ t, TypeName.fromString x.value.asStr = x.value) :
    Reads (encOption (encSpanned cs encTypeName) t) (decOption (decSpanned cs decTypeName)) t := by
  cases t with
  | none => exact reads_none _
  | some x => exact reads_some (reads_spanned (hs x rfl) (reads_typeName (ht x rfl))) (encFields_cons _)

/-- The span is read back. -/
def Codec.Good (cs : Codec S) (s : S) : Prop := Reads (cs.enc s) cs.dec s
/-- The type name is read back. -/
def GoodType (t : TypeName) : Prop := TypeName.fromString t.asStr = t

theorem reads_value {v : Value S} (h : v.Meets cs.Good GoodType) : Reads (encValue cs v) (decValue cs) v :=
  reads_map (fun p : Option (Spanned TypeName S) × Spanned Literal S => (⟨p.1, p.2⟩ : Value S))
    (reads_opt1 (reads_optType (fun x hx => (h.1 x hx).1) (fun x hx => (h.1 x hx).2))
      (reads_spanned h.2 (reads_literal _)))

theorem encValue_pos (v : Value S) : 1 ≤ (encValue cs v).length := encFields_pos _
theorem encSpanned_pos {α : Type} (enc : α → Bytes) (x : Spanned α S) : 1 ≤ (encSpanned cs enc x).length := encFields_pos _

theorem reads_pair {α β : Type} {b0 b1 : Bytes} {d0 : Dec α} {d1 : Dec β} {x : α} {y : β} (h0 : Reads b0 d0 x)
    (h1 : Reads b1 d1 y) : Reads (b0 ++ b1) (decPair d0 d1) (x, y) := by
  intro hl rest
  rw [List.length_append] at hl
  unfold decPair
  rw [List.append_assoc, h0 (by omega)]
  simp only [h1 (by omega : b1.length < 2 ^ 64)]

theorem reads_props {ps : List (Spanned Str S × Value S)} (h : ∀ kv ∈ ps, cs.Good kv.1.span ∧ kv.2.Meets cs.Good GoodType)
    (hs : (ps.map (·.1.value)).Pairwise (· < ·)) : Reads (encProps cs ps) (decProps cs) ps := by
  intro hl rest
  unfold encProps at hl ⊢
  rw [List.length_append] at hl
  have hp : ps.length ≤ _ := flatMap_length (enc := fun kv => encSpanned cs encStr kv.1 ++ encValue cs kv.2)
    fun kv _ => by have := encValue_pos (cs := cs) kv.2; rw [List.length_append]; omega
  unfold decProps
  rw [List.append_assoc, readHead_head (by omega) (by omega)]
  simp only
  rw [reads_items (dec := decPair (decSpanned cs decStr) (decValue cs))
    (fun kv hkv => reads_pair (reads_spanned (h kv hkv).1 (reads_str _)) (reads_value (h kv hkv).2)) (by omega)]
  simp only [Option.some.injEq, Prod.mk.injEq, and_true]
  exact propMap_id hs

theorem decField_no {α : Type} {n k : Nat} {dec : Dec α} (hk : n ≤ k) (bs : Bytes) : decField n k dec bs = some (none, bs) := by
  unfold decField
  rw [if_neg (by omega)]

theorem encNodes_length (l : List (Spanned (Node S) S)) : l.length ≤ (encNodes cs l).length := by
  induction l with
  | nil => simp
  | cons x l ih =>
    obtain ⟨s, n⟩ := x
    unfold encNodes
    have := encFields_pos [⟨false, cs.enc s⟩, ⟨false, encNode cs n⟩]
    rw [List.length_append, List.length_cons]
    omega

theorem encFields2_length (a b : Bytes) : a.length + b.length < (encFields [⟨false, a⟩, ⟨false, b⟩]).length := by
  rw [encFields_all rfl]
  have := head_length 4 2
  simp only [List.flatMap_cons, List.flatMap_nil, List.append_nil, List.length_append, List.length_cons, List.length_nil,
    Nat.zero_add, Nat.reduceAdd]
  omega

/-- The encoding of a node, with or without children. -/
theorem encNode_eq (t : Option (Spanned TypeName S)) (n : Spanned Str S) (args : List (Value S))
    (props : List (Spanned Str S × Value S)) (children : Option (Spanned (List (Spanned (Node S) S)) S)) :
    encNode cs (.mk t n args props children) =
      head 4 (if children.isNone then 4 else 5) ++ (encOption (encSpanned cs encTypeName) t ++ (encSpanned cs encStr n ++
        (encVec (encValue cs) args ++ (encProps cs props ++ (if children.isNone then [] else encChildren cs children))))) := by
  unfold encNode
  cases children with
  | none => simp [encFields, written]
  | some c => simp [encFields, written]

mutual
theorem reads_node (n : Node S) (h : n.Meets cs.Good GoodType) (fuel : Nat) (hf : (encNode cs n).length ≤ fuel) :
    Reads (encNode cs n) (decNode cs fuel) n := by
  obtain ⟨t, name, args, props, children⟩ := n
  unfold Node.Meets at h
  obtain ⟨ht, hn, ha, hp, hs, hc⟩ := h
  intro hl rest
  have hc' := reads_children children hc
  rw [encNode_eq] at hl hf ⊢
  have hh := head_length 4 (if children.isNone then 4 else 5)
  simp only [List.length_append] at hl hf
  cases fuel with
  | zero => omega
  | succ fuel =>
    unfold decNode
    simp only [List.append_assoc]
    rw [readHead_head (by omega) (by split <;> omega)]
    simp only
    rw [decField_yes (by split <;> omega) (reads_optType (fun x hx => (ht x hx).1) (fun x hx => (ht x hx).2)) (by omega)]
    simp only
    rw [decField_yes (by split <;> omega) (reads_spanned hn (reads_str _)) (by omega)]
    simp only
    rw [decField_yes (by split <;> omega) (reads_vec (enc := encValue cs) (fun v hv => reads_value (ha v hv)) fun v _ => encValue_pos v) (by omega)]
    simp only
    rw [decField_yes (by split <;> omega) (reads_props hp hs) (by omega)]
    simp only
    cases children with
    | none =>
      rw [decField_no (by simp)]
      simp only [Option.isNone_none, if_true, Nat.reduceSub, skip_zero, List.nil_append, Option.join]
      rfl
    | some c =>
      simp only [Option.isNone_some, Bool.false_eq_true, if_false] at hl hf hh ⊢
      rw [decField_yes (by omega) (hc' fuel (by omega)) (by omega)]
      simp only [Nat.reduceSub, skip_zero, Option.join]
      rfl
theorem reads_children (c : Option (Spanned (List (Spanned (Node S) S)) S)) (h : ChildrenMeet cs.Good GoodType c)
    (fuel : Nat) (hf : (encChildren cs c).length ≤ fuel) :
    Reads (encChildren cs c) (decOption (decSpanned cs (decVec (decSpanned cs (decNode cs fuel))))) c := by
  cases c with
  | none => exact reads_none _
  | some c =>
    obtain ⟨s, l⟩ := c
    unfold ChildrenMeet at h
    unfold encChildren at hf ⊢
    have hlen := encFields2_length (cs.enc s) (head 4 l.length ++ encNodes cs l)
    refine reads_some (reads_map (fun p : S × List (Spanned (Node S) S) => (⟨p.1, p.2⟩ : Spanned _ S))
      (reads_struct2 h.1 ?_)) (encFields_cons _)
    intro hl rest
    rw [List.length_append] at hl hlen
    have := encNodes_length (cs := cs) l
    unfold decVec
    rw [List.append_assoc, readHead_head (by omega) (by omega)]
    exact reads_nodes l h.2 fuel (by omega) (by omega) rest
theorem reads_nodes (l : List (Spanned (Node S) S)) (h : NodesMeet cs.Good GoodType l) (fuel : Nat)
    (hf : (encNodes cs l).length ≤ fuel) (hl : (encNodes cs l).length < 2 ^ 64) (rest : Bytes) :
    decItems (decSpanned cs (decNode cs fuel)) l.length (encNodes cs l ++ rest) = some (l, rest) := by
  cases l with
  | nil => rfl
  | cons x l =>
    obtain ⟨s, n⟩ := x
    unfold NodesMeet at h
    unfold encNodes at hf hl ⊢
    have hlen := encFields2_length (cs.enc s) (encNode cs n)
    rw [List.length_append] at hf hl
    have h1 : Reads _ (decSpanned cs (decNode cs fuel)) _ := reads_spanned (enc := encNode cs) (x := ⟨s, n⟩) h.1
      (reads_node n h.2.1 fuel (by omega))
    rw [List.append_assoc, List.length_cons, decItems]
    have h2 := h1 (by unfold encSpanned; simp only; omega) (encNodes cs l ++ rest)
    unfold encSpanned at h2
    simp only at h2
    rw [h2]
    simp only
    rw [reads_nodes l h.2.2 fuel (by omega) (by omega) rest]
end

theorem reads_document {d : Document S} (h : d.Meets cs.Good GoodType) : Reads (encDocument cs d) (decDocument cs) d := by
  obtain ⟨l⟩ := d
  intro hl rest
  have hlen : (encDocument cs ⟨l⟩).length ≤ (encDocument cs ⟨l⟩ ++ rest).length + 1 := by
    rw [List.length_append]; omega
  unfold decDocument
  generalize hfuel : (encDocument cs ⟨l⟩ ++ rest).length + 1 = fuel at hlen
  have key : Reads (encDocument cs ⟨l⟩) (decStruct1 (decVec (decSpanned cs (decNode cs fuel)))) l := by
    unfold encDocument at hlen ⊢
    simp only at hlen ⊢
    refine reads_struct1 ?_
    intro hl rest
    rw [encFields_all rfl] at hlen
    simp only [List.flatMap_cons, List.flatMap_nil, List.append_nil, List.length_append] at hlen hl
    have := encNodes_length (cs := cs) l
    have := head_length 4 l.length
    unfold decVec
    rw [List.append_assoc, readHead_head (by omega) (by omega)]
    exact reads_nodes l h fuel (by omega) (by omega) rest
  simp only [key hl rest, Option.map_some]

theorem good_span {s : Sp Nat} (h : s.Usize) : spanCodec.Good s :=
  reads_map (fun p : Nat × Nat => (⟨p.1, p.2⟩ : Sp Nat)) (reads_struct2 (reads_usize h.1) (reads_usize h.2))

theorem good_pos {p : LinePos} (h : p.Usize) : Reads (encLinePos p) decLinePos p :=
  reads_map (fun p : Nat × Nat × Nat => (⟨p.1, p.2.1, p.2.2⟩ : LinePos))
    (reads_struct3 (reads_usize h.1) (reads_usize h.2.1) (reads_usize h.2.2))

theorem good_lineSpan {s : Sp LinePos} (h : s.LineUsize) : lineSpanCodec.Good s :=
  reads_map (fun p : LinePos × LinePos => (⟨p.1, p.2⟩ : Sp LinePos)) (reads_struct2 (good_pos h.1) (good_pos h.2))

end Cbor
end Knuffel
