import Verif.Theory.Cbor
/-!
# Decoding any bytes

The bound on the depth of nodes in the model is no restriction, and whatever is
decoded can be encoded again.
-/

namespace Knuffel
namespace Cbor

/-- The decoder does not give back more bytes than it got, and gives only values with `P`. -/
def Gets {α : Type} (dec : Dec α) (P : α → Prop) : Prop :=
  ∀ bs x rest, dec bs = some (x, rest) → rest.length ≤ bs.length ∧ P x

theorem Gets.mono {α : Type} {dec : Dec α} {P Q : α → Prop} (h : Gets dec P) (hpq : ∀ x, P x → Q x) : Gets dec Q :=
  fun bs x rest hd => ⟨(h bs x rest hd).1, hpq x (h bs x rest hd).2⟩

theorem unbe_lt (bs : Bytes) : unbe bs < 256 ^ bs.length := by
  have : ∀ (n : Nat) (bs : Bytes), bs.length = n → unbe bs < 256 ^ n := by
    intro n
    induction n with
    | zero => intro bs h; cases bs with
      | nil => decide
      | cons => simp at h
    | succ n ih =>
      intro bs h
      have hne : bs ≠ [] := by rintro rfl; simp at h
      obtain ⟨a, b, rfl⟩ : ∃ a b, bs = a ++ [b] := ⟨bs.dropLast, bs.getLast hne, (List.dropLast_concat_getLast hne).symm⟩
      rw [unbe_append, Nat.pow_succ]
      have := ih a (by simpa using h)
      have := b.toNat_lt
      omega
  exact this _ bs rfl

theorem gets_readBe {k : Nat} : Gets (readBe k) (· < 256 ^ k) := by
  intro bs x rest h
  unfold readBe at h
  split at h
  · cases h
    have := unbe_lt (bs.take k)
    rw [List.length_take, Nat.min_eq_left (by assumption)] at this
    exact ⟨by simp, this⟩
  · cases h

theorem gets_unsigned {info : Nat} : Gets (unsigned info) (· < 2 ^ 64) := by
  intro bs x rest h
  unfold unsigned at h
  split at h
  · cases h; exact ⟨Nat.le_refl _, by omega⟩
  split at h
  · have := gets_readBe _ _ _ h; exact ⟨this.1, by omega⟩
  split at h
  · have := gets_readBe _ _ _ h; exact ⟨this.1, by omega⟩
  split at h
  · have := gets_readBe _ _ _ h; exact ⟨this.1, by omega⟩
  split at h
  · have := gets_readBe _ _ _ h; exact ⟨this.1, by omega⟩
  · cases h

theorem readHead_gets {major : Nat} {bs : Bytes} {n : Nat} {rest : Bytes} (h : readHead major bs = some (n, rest)) :
    rest.length < bs.length ∧ n < 2 ^ 64 := by
  cases bs with
  | nil => cases h
  | cons b bs =>
    simp only [readHead] at h
    split at h
    · have := gets_unsigned _ _ _ h
      exact ⟨by simp only [List.length_cons]; omega, this.2⟩
    · cases h

theorem gets_usize : Gets decUsize (· < 2 ^ 64) := fun _ _ _ h => ⟨by have := (readHead_gets h).1; omega, (readHead_gets h).2⟩

theorem gets_u32 : Gets decU32 (fun _ => True) := by
  intro bs x rest h
  unfold decU32 at h
  cases hr : readHead 0 bs with
  | none => rw [hr] at h; cases h
  | some p =>
    obtain ⟨n, r⟩ := p
    rw [hr] at h
    simp only at h
    split at h
    · cases h; exact ⟨by have := (readHead_gets hr).1; omega, trivial⟩
    · cases h

theorem gets_str : Gets decStr (fun _ => True) := by
  intro bs x rest h
  unfold decStr at h
  cases hr : readHead 3 bs with
  | none => rw [hr] at h; cases h
  | some p =>
    obtain ⟨n, r⟩ := p
    have := (readHead_gets hr).1
    rw [hr] at h
    simp only at h
    split at h
    · split at h
      · cases h; exact ⟨by rw [List.length_drop]; omega, trivial⟩
      · cases h
    · cases h

theorem gets_bool : Gets decBool (fun _ => True) := by
  intro bs x rest h
  cases bs with
  | nil => cases h
  | cons b bs =>
    simp only [decBool] at h
    split at h
    · cases h; exact ⟨by simp, trivial⟩
    split at h
    · cases h; exact ⟨by simp, trivial⟩
    · cases h

theorem gets_radix : Gets decRadix (fun _ => True) := by
  intro bs x rest h
  unfold decRadix at h
  split at h
  · rename_i r hr; cases h; exact ⟨(gets_u32 _ _ _ hr).1, trivial⟩
  · rename_i r hr; cases h; exact ⟨(gets_u32 _ _ _ hr).1, trivial⟩
  · rename_i r hr; cases h; exact ⟨(gets_u32 _ _ _ hr).1, trivial⟩
  · rename_i r hr; cases h; exact ⟨(gets_u32 _ _ _ hr).1, trivial⟩
  · cases h

theorem gets_map {α β : Type} {dec : Dec α} {P : α → Prop} {Q : β → Prop} {f : α → β} (h : Gets dec P) (hf : ∀ x, P x → Q (f x)) :
    Gets (fun bs => (dec bs).map fun (x, rest) => (f x, rest)) Q := by
  intro bs y rest hd
  cases hx : dec bs with
  | none => simp only [hx] at hd; cases hd
  | some p =>
    obtain ⟨x, r⟩ := p
    simp only [hx, Option.map_some] at hd
    cases hd
    exact ⟨(h _ _ _ hx).1, hf x (h _ _ _ hx).2⟩

theorem gets_typeName : Gets decTypeName ReadableType := gets_map gets_str fun s _ => readable_fromString s

theorem gets_option {α : Type} {dec : Dec α} {P : α → Prop} (h : Gets dec P) : Gets (decOption dec) (fun x => ∀ y, x = some y → P y) := by
  intro bs x rest hd
  cases bs with
  | nil => cases hd
  | cons b bs =>
    simp only [decOption] at hd
    split at hd
    · cases hd; exact ⟨by simp, by intro y hy; cases hy⟩
    · cases hx : dec (b :: bs) with
      | none => rw [hx] at hd; cases hd
      | some p =>
        obtain ⟨y, r⟩ := p
        rw [hx] at hd
        cases hd
        exact ⟨(h _ _ _ hx).1, fun z hz => by cases hz; exact (h _ _ _ hx).2⟩

theorem gets_items {α : Type} {dec : Dec α} {P : α → Prop} (h : Gets dec P) (n : Nat) : Gets (decItems dec n) (fun l => ∀ x ∈ l, P x) := by
  induction n with
  | zero => intro bs x rest hd; cases hd; exact ⟨Nat.le_refl _, by simp⟩
  | succ n ih =>
    intro bs x rest hd
    unfold decItems at hd
    cases hx : dec bs with
    | none => rw [hx] at hd; cases hd
    | some p =>
      obtain ⟨y, r⟩ := p
      rw [hx] at hd
      simp only at hd
      cases hi : decItems dec n r with
      | none => rw [hi] at hd; cases hd
      | some q =>
        obtain ⟨l, r'⟩ := q
        rw [hi] at hd
        cases hd
        have h1 := h _ _ _ hx
        have h2 := ih _ _ _ hi
        exact ⟨by omega, by simp only [List.mem_cons, forall_eq_or_imp]; exact ⟨h1.2, h2.2⟩⟩

theorem gets_vec {α : Type} {dec : Dec α} {P : α → Prop} (h : Gets dec P) : Gets (decVec dec) (fun l => ∀ x ∈ l, P x) := by
  intro bs x rest hd
  unfold decVec at hd
  cases hr : readHead 4 bs with
  | none => rw [hr] at hd; cases hd
  | some p =>
    obtain ⟨n, r⟩ := p
    rw [hr] at hd
    have := (readHead_gets hr).1
    have := gets_items h n _ _ _ hd
    exact ⟨by omega, this.2⟩

theorem gets_pair {α β : Type} {d0 : Dec α} {d1 : Dec β} {P : α → Prop} {Q : β → Prop} (h0 : Gets d0 P) (h1 : Gets d1 Q) :
    Gets (decPair d0 d1) (fun p => P p.1 ∧ Q p.2) := by
  intro bs x rest hd
  unfold decPair at hd
  cases hx : d0 bs with
  | none => rw [hx] at hd; cases hd
  | some p =>
    obtain ⟨y, r⟩ := p
    rw [hx] at hd
    simp only at hd
    cases hy : d1 r with
    | none => rw [hy] at hd; cases hd
    | some q =>
      obtain ⟨z, r'⟩ := q
      rw [hy] at hd
      cases hd
      have h2 := h0 _ _ _ hx
      have h3 := h1 _ _ _ hy
      exact ⟨by omega, h2.2, h3.2⟩

theorem skipLoop_gets {fuel rounds : Nat} {bs rest : Bytes} (h : skipLoop fuel rounds bs = some rest) : rest.length ≤ bs.length := by
  induction fuel generalizing rounds bs with
  | zero =>
    cases rounds with
    | zero => simp only [skipLoop] at h; cases h; exact Nat.le_refl _
    | succ => simp only [skipLoop] at h; cases h
  | succ fuel ih =>
    cases rounds with
    | zero => simp only [skipLoop] at h; cases h; exact Nat.le_refl _
    | succ rounds =>
      cases bs with
      | nil => simp only [skipLoop] at h; cases h
      | cons b bs =>
        simp only [skipLoop] at h
        cases hu : unsigned (b.toNat % 32) bs with
        | none => simp only [hu] at h; cases h
        | some p =>
          obtain ⟨n, r⟩ := p
          have hr := (gets_unsigned _ _ _ hu).1
          simp only [hu] at h
          rw [List.length_cons]
          split at h
          · split at h
            · have := ih h; rw [List.length_drop] at this; omega
            · cases h
          · split at h
            · have := ih h; rw [List.length_drop] at this; omega
            · cases h
          · have := ih h; omega
          · have := ih h; omega
          · have := ih h; omega
          · have := ih h; omega

theorem skip_gets {n : Nat} {bs rest : Bytes} (h : skip n bs = some rest) : rest.length ≤ bs.length := skipLoop_gets h

theorem gets_field {α : Type} {n k : Nat} {dec : Dec α} {P : α → Prop} (h : Gets dec P) :
    Gets (decField n k dec) (fun x => ∀ y, x = some y → P y) := by
  intro bs x rest hd
  unfold decField at hd
  split at hd
  · cases hx : dec bs with
    | none => rw [hx] at hd; cases hd
    | some p =>
      obtain ⟨y, r⟩ := p
      rw [hx] at hd
      cases hd
      exact ⟨(h _ _ _ hx).1, fun z hz => by cases hz; exact (h _ _ _ hx).2⟩
  · cases hd; exact ⟨Nat.le_refl _, by intro y hy; cases hy⟩

theorem gets_struct1 {α : Type} {d0 : Dec α} {P : α → Prop} (h0 : Gets d0 P) : Gets (decStruct1 d0) P := by
  intro bs x rest hd
  unfold decStruct1 at hd
  cases hr : readHead 4 bs with
  | none => simp only [hr] at hd; cases hd
  | some p =>
    obtain ⟨n, b1⟩ := p
    simp only [hr] at hd
    have g := (readHead_gets hr).1
    cases h1 : decField n 0 d0 b1 with
    | none => simp only [h1] at hd; cases hd
    | some p =>
      obtain ⟨y, b2⟩ := p
      simp only [h1] at hd
      have g1 := gets_field h0 _ _ _ h1
      cases h2 : skip (n - 1) b2 with
      | none => simp only [h2] at hd; cases hd
      | some b3 =>
        simp only [h2] at hd
        have g2 := skip_gets h2
        cases y with
        | none => cases hd
        | some y => cases hd; exact ⟨by omega, g1.2 _ rfl⟩

theorem gets_struct2 {α β : Type} {d0 : Dec α} {d1 : Dec β} {P : α → Prop} {Q : β → Prop} (h0 : Gets d0 P) (h1 : Gets d1 Q) :
    Gets (decStruct2 d0 d1) (fun p => P p.1 ∧ Q p.2) := by
  intro bs x rest hd
  unfold decStruct2 at hd
  cases hr : readHead 4 bs with
  | none => simp only [hr] at hd; cases hd
  | some p =>
    obtain ⟨n, b1⟩ := p
    simp only [hr] at hd
    have g := (readHead_gets hr).1
    cases e1 : decField n 0 d0 b1 with
    | none => simp only [e1] at hd; cases hd
    | some p =>
      obtain ⟨y, b2⟩ := p
      simp only [e1] at hd
      have g1 := gets_field h0 _ _ _ e1
      cases e2 : decField n 1 d1 b2 with
      | none => simp only [e2] at hd; cases hd
      | some p =>
        obtain ⟨z, b3⟩ := p
        simp only [e2] at hd
        have g2 := gets_field h1 _ _ _ e2
        cases e3 : skip (n - 2) b3 with
        | none => simp only [e3] at hd; cases hd
        | some b4 =>
          simp only [e3] at hd
          have g3 := skip_gets e3
          cases y with
          | none => cases hd
          | some y =>
            cases z with
            | none => cases hd
            | some z => cases hd; exact ⟨by omega, g1.2 _ rfl, g2.2 _ rfl⟩

theorem gets_struct3 {α β γ : Type} {d0 : Dec α} {d1 : Dec β} {d2 : Dec γ} {P : α → Prop} {Q : β → Prop} {R : γ → Prop}
    (h0 : Gets d0 P) (h1 : Gets d1 Q) (h2 : Gets d2 R) : Gets (decStruct3 d0 d1 d2) (fun p => P p.1 ∧ Q p.2.1 ∧ R p.2.2) := by
  intro bs x rest hd
  unfold decStruct3 at hd
  cases hr : readHead 4 bs with
  | none => simp only [hr] at hd; cases hd
  | some p =>
    obtain ⟨n, b1⟩ := p
    simp only [hr] at hd
    have g := (readHead_gets hr).1
    cases e1 : decField n 0 d0 b1 with
    | none => simp only [e1] at hd; cases hd
    | some p =>
      obtain ⟨y, b2⟩ := p
      simp only [e1] at hd
      have g1 := gets_field h0 _ _ _ e1
      cases e2 : decField n 1 d1 b2 with
      | none => simp only [e2] at hd; cases hd
      | some p =>
        obtain ⟨z, b3⟩ := p
        simp only [e2] at hd
        have g2 := gets_field h1 _ _ _ e2
        cases e4 : decField n 2 d2 b3 with
        | none => simp only [e4] at hd; cases hd
        | some p =>
          obtain ⟨w, b4⟩ := p
          simp only [e4] at hd
          have g4 := gets_field h2 _ _ _ e4
          cases e3 : skip (n - 3) b4 with
          | none => simp only [e3] at hd; cases hd
          | some b5 =>
            simp only [e3] at hd
            have g3 := skip_gets e3
            cases y with
            | none => cases hd
            | some y =>
              cases z with
              | none => cases hd
              | some z =>
                cases w with
                | none => cases hd
                | some w => cases hd; exact ⟨by omega, g1.2 _ rfl, g2.2 _ rfl, g4.2 _ rfl⟩

theorem join_all {α : Type} {P : α → Prop} {x : Option (Option α)} (h : ∀ y, x = some y → ∀ z, y = some z → P z) :
    ∀ z, x.join = some z → P z := by
  intro z hz
  cases x with
  | none => cases hz
  | some y => exact h y rfl z hz

theorem gets_opt1 {α β : Type} {d0 : Dec α} {d1 : Dec β} {P : α → Prop} {Q : β → Prop} (h0 : Gets d0 P) (h1 : Gets d1 Q) :
    Gets (decOpt1 d0 d1) (fun p => (∀ x, p.1 = some x → P x) ∧ Q p.2) := by
  intro bs x rest hd
  unfold decOpt1 at hd
  cases hr : readHead 4 bs with
  | none => simp only [hr] at hd; cases hd
  | some p =>
    obtain ⟨n, b1⟩ := p
    simp only [hr] at hd
    have g := (readHead_gets hr).1
    cases e1 : decField n 0 (decOption d0) b1 with
    | none => simp only [e1] at hd; cases hd
    | some p =>
      obtain ⟨y, b2⟩ := p
      simp only [e1] at hd
      have g1 := gets_field (gets_option h0) _ _ _ e1
      cases e2 : decField n 1 d1 b2 with
      | none => simp only [e2] at hd; cases hd
      | some p =>
        obtain ⟨z, b3⟩ := p
        simp only [e2] at hd
        have g2 := gets_field h1 _ _ _ e2
        cases e3 : skip (n - 2) b3 with
        | none => simp only [e3] at hd; cases hd
        | some b4 =>
          simp only [e3] at hd
          have g3 := skip_gets e3
          cases z with
          | none => cases hd
          | some z => cases hd; exact ⟨by omega, join_all g1.2, g2.2 _ rfl⟩

theorem gets_literal : Gets decLiteral (fun _ => True) := by
  have mp : ∀ {α : Type} {dec : Dec α} {f : α → Literal} {bs x rest}, Gets dec (fun _ => True) →
      (dec bs).map (fun (p : α × Bytes) => (f p.1, p.2)) = some (x, rest) → rest.length ≤ bs.length :=
    fun {α dec f bs x rest} h e => (gets_map (f := f) (Q := fun _ => True) h (fun _ _ => trivial) bs x rest e).1
  have t : ∀ {α : Type} {dec : Dec α} {P : α → Prop}, Gets dec P → Gets dec (fun _ => True) := fun h => h.mono fun _ _ => trivial
  intro bs x rest hd
  refine ⟨?_, trivial⟩
  unfold decLiteral at hd
  split at hd
  · rename_i b1 hr
    have g := (readHead_gets hr).1
    split at hd
    · rename_i b2 hu
      have g2 := (gets_u32 _ _ _ hu).1
      cases hs : skip 1 b2 with
      | none => rw [hs] at hd; cases hd
      | some r =>
        rw [hs] at hd
        cases hd
        have := skip_gets hs
        omega
    · rename_i b2 hu
      have g2 := (gets_u32 _ _ _ hu).1
      have := mp (t (gets_struct1 gets_bool)) hd
      omega
    · rename_i b2 hu
      have g2 := (gets_u32 _ _ _ hu).1
      have := mp (f := fun (x : Radix × Str) => .int x.1 x.2) (t (gets_struct1 (gets_struct2 gets_radix gets_str))) hd
      omega
    · rename_i b2 hu
      have g2 := (gets_u32 _ _ _ hu).1
      have := mp (t (gets_struct1 gets_str)) hd
      omega
    · rename_i b2 hu
      have g2 := (gets_u32 _ _ _ hu).1
      have := mp (t (gets_struct1 gets_str)) hd
      omega
    · cases hd
  · cases hd

variable {S : Type} {cs : Codec S} {P : S → Prop}

theorem gets_spanned {α : Type} {dec : Dec α} {Q : α → Prop} (hs : Gets cs.dec P) (h : Gets dec Q) :
    Gets (decSpanned cs dec) (fun x => P x.span ∧ Q x.value) :=
  gets_map (f := fun p : S × α => (⟨p.1, p.2⟩ : Spanned α S)) (gets_struct2 hs h) fun _ h => h

theorem gets_value (hs : Gets cs.dec P) : Gets (decValue cs) (Value.Meets P ReadableType) :=
  gets_map (f := fun p : Option (Spanned TypeName S) × Spanned Literal S => (⟨p.1, p.2⟩ : Value S)) (gets_opt1 (gets_spanned hs gets_typeName) (gets_spanned hs gets_literal)) fun _ h => ⟨h.1, h.2.1⟩

theorem gets_props (hs : Gets cs.dec P) :
    Gets (decProps cs) (fun l => (∀ kv ∈ l, P kv.1.span ∧ kv.2.Meets P ReadableType) ∧ (l.map (·.1.value)).Pairwise (· < ·)) := by
  intro bs x rest hd
  unfold decProps at hd
  cases hr : readHead 5 bs with
  | none => simp only [hr] at hd; cases hd
  | some p =>
    obtain ⟨n, b1⟩ := p
    simp only [hr] at hd
    have g := (readHead_gets hr).1
    cases hi : decItems (decPair (decSpanned cs decStr) (decValue cs)) n b1 with
    | none => simp only [hi] at hd; cases hd
    | some p =>
      obtain ⟨l, r⟩ := p
      simp only [hi] at hd
      cases hd
      have h := gets_items (gets_pair (gets_spanned hs gets_str) (gets_value hs)) n _ _ _ hi
      refine ⟨by omega, ?_, ?_⟩
      · exact propMap_all (P := fun k => P k.span) (Q := fun v => v.Meets P ReadableType) fun kv hkv => ⟨(h.2 kv hkv).1.1, (h.2 kv hkv).2⟩
      · have : ∀ (l m : List (Spanned Str S × Value S)), (m.map (·.1.value)).Pairwise (· < ·) →
            ((l.foldl (fun m kv => propInsert kv.1 kv.2 m) m).map (·.1.value)).Pairwise (· < ·) := by
          intro l
          induction l with
          | nil => intro m hm; exact hm
          | cons kv l ih => intro m hm; exact ih _ (propInsert_sorted hm)
        exact this l [] (by simp)

theorem nodesMeet_iff {Q : TypeName → Prop} {l : List (Spanned (Node S) S)} :
    NodesMeet P Q l ↔ ∀ x ∈ l, P x.span ∧ x.value.Meets P Q := by
  induction l with
  | nil => simp [NodesMeet]
  | cons x l ih => obtain ⟨s, n⟩ := x; simp [NodesMeet, ih, and_assoc]

theorem gets_node (hs : Gets cs.dec P) (fuel : Nat) : Gets (decNode cs fuel) (Node.Meets P ReadableType) := by
  induction fuel with
  | zero => intro bs x rest hd; cases hd
  | succ fuel ih =>
    intro bs x rest hd
    unfold decNode at hd
    cases hr : readHead 4 bs with
    | none => simp only [hr] at hd; cases hd
    | some p =>
    obtain ⟨n, b1⟩ := p
    simp only [hr] at hd
    have g := (readHead_gets hr).1
    cases e0 : decField n 0 (decOption (decSpanned cs decTypeName)) b1 with
    | none => simp only [e0] at hd; cases hd
    | some p =>
    obtain ⟨t, b2⟩ := p
    simp only [e0] at hd
    have g0 := gets_field (gets_option (gets_spanned hs gets_typeName)) _ _ _ e0
    cases e1 : decField n 1 (decSpanned cs decStr) b2 with
    | none => simp only [e1] at hd; cases hd
    | some p =>
    obtain ⟨name, b3⟩ := p
    simp only [e1] at hd
    have g1 := gets_field (gets_spanned hs gets_str) _ _ _ e1
    cases e2 : decField n 2 (decVec (decValue cs)) b3 with
    | none => simp only [e2] at hd; cases hd
    | some p =>
    obtain ⟨args, b4⟩ := p
    simp only [e2] at hd
    have g2 := gets_field (gets_vec (gets_value hs)) _ _ _ e2
    cases e3 : decField n 3 (decProps cs) b4 with
    | none => simp only [e3] at hd; cases hd
    | some p =>
    obtain ⟨props, b5⟩ := p
    simp only [e3] at hd
    have g3 := gets_field (gets_props hs) _ _ _ e3
    cases e4 : decField n 4 (decOption (decSpanned cs (decVec (decSpanned cs (decNode cs fuel))))) b5 with
    | none => simp only [e4] at hd; cases hd
    | some p =>
    obtain ⟨children, b6⟩ := p
    simp only [e4] at hd
    have g4 := gets_field (gets_option (gets_spanned hs (gets_vec (gets_spanned hs ih)))) _ _ _ e4
    cases e5 : skip (n - 5) b6 with
    | none => simp only [e5] at hd; cases hd
    | some b7 =>
    simp only [e5] at hd
    have g5 := skip_gets e5
    cases name with
    | none => cases hd
    | some name =>
    cases args with
    | none => cases hd
    | some args =>
    cases props with
    | none => cases hd
    | some props =>
    cases hd
    refine ⟨by omega, ?_⟩
    unfold Node.Meets
    refine ⟨join_all g0.2, (g1.2 _ rfl).1, g2.2 _ rfl, (g3.2 _ rfl).1, (g3.2 _ rfl).2, ?_⟩
    have := join_all g4.2
    cases hc : children.join with
    | none => trivial
    | some c =>
      obtain ⟨s, l⟩ := c
      have := this _ hc
      exact ⟨this.1, nodesMeet_iff.2 this.2⟩

theorem gets_document (hs : Gets cs.dec P) : Gets (decDocument cs) (Document.Meets P ReadableType) := by
  intro bs x rest hd
  unfold decDocument at hd
  have := gets_map (f := fun l => (⟨l⟩ : Document S)) (Q := Document.Meets P ReadableType)
    (gets_struct1 (gets_vec (gets_spanned hs (gets_node hs (bs.length + 1))))) (fun l hl => nodesMeet_iff.2 hl)
  exact this bs x rest hd

theorem gets_spanCodec : Gets spanCodec.dec Sp.Usize := 
  gets_map (f := fun p : Nat × Nat => (⟨p.1, p.2⟩ : Sp Nat)) (gets_struct2 gets_usize gets_usize) fun _ h => h
theorem gets_linePos : Gets decLinePos LinePos.Usize := 
  gets_map (f := fun p : Nat × Nat × Nat => (⟨p.1, p.2.1, p.2.2⟩ : LinePos)) (gets_struct3 gets_usize gets_usize gets_usize) fun _ h => h
theorem gets_lineSpanCodec : Gets lineSpanCodec.dec Sp.LineUsize := 
  gets_map (f := fun p : LinePos × LinePos => (⟨p.1, p.2⟩ : Sp LinePos)) (gets_struct2 gets_linePos gets_linePos) fun _ h => h

/-! ### The bound on the depth -/

/-- The decoders agree on inputs shorter than `n`. -/
def Same {α : Type} (n : Nat) (d d' : Dec α) : Prop := ∀ bs, bs.length < n → d bs = d' bs

theorem same_items {α : Type} {d d' : Dec α} {n : Nat} (h : Same n d d') (hd : Gets d fun _ => True) (k : Nat) :
    Same n (decItems d k) (decItems d' k) := by
  induction k with
  | zero => intro bs _; rfl
  | succ k ih =>
    intro bs hb
    unfold decItems
    rw [← h bs hb]
    cases hx : d bs with
    | none => rfl
    | some p =>
      obtain ⟨x, r⟩ := p
      simp only
      rw [ih r (by have := (hd _ _ _ hx).1; omega)]

theorem same_vec {α : Type} {d d' : Dec α} {n : Nat} (h : Same n d d') (hd : Gets d fun _ => True) : Same n (decVec d) (decVec d') := by
  intro bs hb
  unfold decVec
  cases hr : readHead 4 bs with
  | none => rfl
  | some p =>
    obtain ⟨k, r⟩ := p
    exact same_items h hd k r (by have := (readHead_gets hr).1; omega)

theorem same_field {α : Type} {d d' : Dec α} {n : Nat} (h : Same n d d') (k i : Nat) : Same n (decField k i d) (decField k i d') := by
  intro bs hb
  unfold decField
  rw [h bs hb]

theorem same_option {α : Type} {d d' : Dec α} {n : Nat} (h : Same n d d') : Same n (decOption d) (decOption d') := by
  intro bs hb
  cases bs with
  | nil => rfl
  | cons b bs =>
    simp only [decOption]
    rw [h _ hb]

theorem same_spanned {α : Type} {d d' : Dec α} {n : Nat} (h : Same n d d') (hs : Gets cs.dec P) :
    Same n (decSpanned cs d) (decSpanned cs d') := by
  intro bs hb
  unfold decSpanned decStruct2
  cases hr : readHead 4 bs with
  | none => rfl
  | some p =>
    obtain ⟨k, b1⟩ := p
    have g := (readHead_gets hr).1
    simp only
    cases e0 : decField k 0 cs.dec b1 with
    | none => rfl
    | some p =>
      obtain ⟨s, b2⟩ := p
      simp only
      have g0 := (gets_field hs _ _ _ e0).1
      rw [same_field h k 1 b2 (by omega)]

theorem decNode_fuel (hs : Gets cs.dec P) (f g : Nat) : Same (min f g) (decNode cs f) (decNode cs g) := by
  induction f generalizing g with
  | zero => intro bs hb; omega
  | succ f ih =>
    cases g with
    | zero => intro bs hb; omega
    | succ g =>
      intro bs hb
      unfold decNode
      cases hr : readHead 4 bs with
      | none => rfl
      | some p =>
      obtain ⟨n, b1⟩ := p
      have g0 := (readHead_gets hr).1
      simp only
      cases e0 : decField n 0 (decOption (decSpanned cs decTypeName)) b1 with
      | none => rfl
      | some p =>
      obtain ⟨t, b2⟩ := p
      have g1 := (gets_field (gets_option (gets_spanned hs gets_typeName)) _ _ _ e0).1
      simp only
      cases e1 : decField n 1 (decSpanned cs decStr) b2 with
      | none => rfl
      | some p =>
      obtain ⟨name, b3⟩ := p
      have g2 := (gets_field (gets_spanned hs gets_str) _ _ _ e1).1
      simp only
      cases e2 : decField n 2 (decVec (decValue cs)) b3 with
      | none => rfl
      | some p =>
      obtain ⟨args, b4⟩ := p
      have g3 := (gets_field (gets_vec (gets_value hs)) _ _ _ e2).1
      simp only
      cases e3 : decField n 3 (decProps cs) b4 with
      | none => rfl
      | some p =>
      obtain ⟨props, b5⟩ := p
      have g4 := (gets_field (gets_props hs) _ _ _ e3).1
      simp only
      have key : Same (min f g) (decOption (decSpanned cs (decVec (decSpanned cs (decNode cs f)))))
          (decOption (decSpanned cs (decVec (decSpanned cs (decNode cs g))))) :=
        same_option (same_spanned (same_vec (same_spanned (ih g) hs)
          ((gets_spanned hs (gets_node hs f)).mono fun _ _ => trivial)) hs)
      rw [same_field key n 4 b5 (by omega)]

theorem decDocument_fuel (hs : Gets cs.dec P) (bs : Bytes) (f : Nat) (hf : bs.length < f) :
    (decStruct1 (decVec (decSpanned cs (decNode cs f))) bs).map (fun (l, rest) => ((⟨l⟩ : Document S), rest)) = decDocument cs bs := by
  unfold decDocument
  have key : Same (bs.length + 1) (decVec (decSpanned cs (decNode cs f))) (decVec (decSpanned cs (decNode cs (bs.length + 1)))) := by
    refine same_vec (same_spanned ?_ hs) ((gets_spanned hs (gets_node hs f)).mono fun _ _ => trivial)
    intro b hb
    exact decNode_fuel hs f (bs.length + 1) b (by omega)
  unfold decStruct1
  cases hr : readHead 4 bs with
  | none => rfl
  | some p =>
    obtain ⟨n, b1⟩ := p
    have g := (readHead_gets hr).1
    simp only
    rw [same_field key n 0 b1 (by omega)]

end Cbor
end Knuffel
