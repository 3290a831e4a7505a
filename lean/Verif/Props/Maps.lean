import Verif.Model.Maps
import Verif.Theory.Order
/-!
# C48: spanned values compare, order and hash as their values
-/

namespace Knuffel
variable {H α K Q S W : Type}

/-- What Rust requires of `Eq`, `PartialOrd`, `Ord` and `Hash` together. -/
structure Cmp.Lawful (c : Cmp H α) : Prop where
  refl : ∀ a, c.eq a a = true
  symm : ∀ a b, c.eq a b = true → c.eq b a = true
  trans : ∀ a b d, c.eq a b = true → c.eq b d = true → c.eq a d = true
  partialCmp : ∀ a b, c.partialCmp a b = some (c.cmp a b)
  cmp_eq : ∀ a b, c.cmp a b = .eq ↔ c.eq a b = true
  cmp_swap : ∀ a b, c.cmp b a = (c.cmp a b).swap
  lt_trans : ∀ a b d, c.cmp a b = .lt → c.cmp b d = .lt → c.cmp a d = .lt
  lt_congr : ∀ a b d, c.eq a b = true → c.cmp a d = c.cmp b d
  hash : ∀ a b, c.eq a b = true → c.hash a = c.hash b

theorem strCmp_lawful (h : Str → H → H) : (strCmp h).Lawful := by
  have irr : ∀ a b, strLt a b = true → strLt b a = false := by
    intro a b h1
    cases h2 : strLt b a with
    | false => rfl
    | true => have := strLt_trans h1 h2; rw [strLt_irrefl] at this; simp at this
  have tot := strLt_total
  refine ⟨?_, ?_, ?_, ?_, ?_, ?_, ?_, ?_, ?_⟩ <;> simp only [strCmp, decide_eq_true_eq]
  · exact fun _ => trivial
  · exact fun _ _ h => h.symm
  · exact fun _ _ _ h h' => h.trans h'
  · exact fun _ _ => trivial
  · intro a b
    split
    · simp [*]
    · split <;> simp [*]
  · intro a b
    by_cases e : a = b
    · simp [e]
    · rw [if_neg e, if_neg (Ne.symm e)]
      rcases tot a b with h | h | h
      · simp [h, irr _ _ h]
      · exact absurd h e
      · simp [h, irr _ _ h]
  · intro a b d h1 h2
    have lt : ∀ x y : Str, (if x = y then Ordering.eq else if strLt x y = true then .lt else .gt) = .lt → strLt x y = true := by
      intro x y
      split
      · simp
      · split <;> simp [*]
    have h3 := strLt_trans (lt a b h1) (lt b d h2)
    rw [if_neg, if_pos h3]
    rintro rfl
    rw [strLt_irrefl] at h3; simp at h3
  · rintro a _ d rfl; rfl
  · rintro a _ rfl; rfl

/-! ### C48 -/

/-- Two spanned values compare, order and hash exactly as their values; the
spans do not matter. -/
theorem c48_ignores_span (c : Cmp H α) (v w : α) (s s' t t' : S) (st : H) :
    (Spanned.cmps c).eq ⟨s, v⟩ ⟨t, w⟩ = c.eq v w ∧
    (Spanned.cmps c).partialCmp ⟨s, v⟩ ⟨t, w⟩ = c.partialCmp v w ∧
    (Spanned.cmps c).cmp ⟨s, v⟩ ⟨t, w⟩ = c.cmp v w ∧
    (Spanned.cmps c).hash ⟨s, v⟩ st = c.hash v st ∧
    (Spanned.cmps c).eq ⟨s, v⟩ ⟨t, w⟩ = (Spanned.cmps c).eq ⟨s', v⟩ ⟨t', w⟩ :=
  ⟨rfl, rfl, rfl, rfl, rfl⟩

/-- If the traits of the values are lawful, those of the spanned values are. -/
theorem c48_lawful {c : Cmp H α} (h : c.Lawful) : (Spanned.cmps (S := S) c).Lawful :=
  ⟨fun _ => h.refl _, fun _ _ => h.symm _ _, fun _ _ _ => h.trans _ _ _, fun _ _ => h.partialCmp _ _, fun _ _ => h.cmp_eq _ _,
    fun _ _ => h.cmp_swap _ _, fun _ _ _ => h.lt_trans _ _ _, fun _ _ _ => h.lt_congr _ _ _, fun _ _ e => h.hash _ _ e⟩

/-- Spanned strings. -/
example : (Spanned.cmps (S := Sp Nat) (strCmp (fun s (n : Nat) => n + s.length))).Lawful := c48_lawful (strCmp_lawful _)

/-- The contract of `Borrow`: comparing and hashing the borrowed values is
comparing and hashing the spanned ones. -/
theorem c48_borrow (c : Cmp H α) (x y : Spanned α S) (st : H) :
    c.eq x.borrow y.borrow = (Spanned.cmps c).eq x y ∧
    c.cmp x.borrow y.borrow = (Spanned.cmps c).cmp x y ∧
    c.hash x.borrow st = (Spanned.cmps c).hash x st := ⟨rfl, rfl, rfl⟩

/-- A map after the insertions, in order. -/
def inserted (ins : K → W → List (K × W) → List (K × W)) (l : List (K × W)) : List (K × W) :=
  l.foldl (fun m kw => ins kw.1 kw.2 m) []

/-- The value of the last insertion whose key is equal to `q`. -/
def lastFor (eq : Q → Q → Bool) (key : K → Q) (q : Q) (l : List (K × W)) : Option W :=
  (l.reverse.find? (fun kw => eq q (key kw.1))).map (·.2)

theorem lastFor_snoc {eq : Q → Q → Bool} {key : K → Q} {q : Q} {l : List (K × W)} {k w} :
    lastFor eq key q (l ++ [(k, w)]) = if eq q (key k) = true then some w else lastFor eq key q l := by
  unfold lastFor
  rw [List.reverse_append, List.reverse_singleton, List.singleton_append, List.find?_cons]
  cases eq q (key k) <;> rfl

section btree
variable {c : Cmp H α} (hc : c.Lawful)
include hc

theorem lt_of_eq_right {a b d : α} (h : c.eq b d = true) : c.cmp a b = c.cmp a d := by
  rw [hc.cmp_swap b a, hc.cmp_swap d a, hc.lt_congr b d a h]

/-- The keys of a map are in increasing order. -/
def Increasing (c : Cmp H α) (m : List (Spanned α S × W)) : Prop :=
  m.Pairwise (fun a b => c.cmp a.1.value b.1.value = .lt)

omit hc in
theorem btreeInsert_mem {k : Spanned α S} {w : W} {m : List (Spanned α S × W)} {x} (h : x ∈ btreeInsert (Spanned.cmps c) k w m) :
    x.1 = k ∨ ∃ y ∈ m, y.1 = x.1 := by
  induction m with
  | nil => simp only [btreeInsert, List.mem_singleton] at h; exact Or.inl (by rw [h])
  | cons y m ih =>
    obtain ⟨k', w'⟩ := y
    unfold btreeInsert at h
    split at h
    · rcases List.mem_cons.1 h with rfl | h
      · exact Or.inl rfl
      · exact Or.inr ⟨x, h, rfl⟩
    · rcases List.mem_cons.1 h with rfl | h
      · exact Or.inr ⟨_, List.mem_cons_self, rfl⟩
      · exact Or.inr ⟨x, List.mem_cons_of_mem _ h, rfl⟩
    · rcases List.mem_cons.1 h with rfl | h
      · exact Or.inr ⟨_, List.mem_cons_self, rfl⟩
      · rcases ih h with e | ⟨z, hz, e⟩
        · exact Or.inl e
        · exact Or.inr ⟨z, List.mem_cons_of_mem _ hz, e⟩

theorem increasing_insert {k : Spanned α S} {w : W} {m : List (Spanned α S × W)} (hm : Increasing c m) :
    Increasing c (btreeInsert (Spanned.cmps c) k w m) := by
  induction m with
  | nil => exact List.pairwise_singleton _ _
  | cons y m ih =>
    obtain ⟨k', w'⟩ := y
    obtain ⟨h1, h2⟩ := List.pairwise_cons.1 hm
    unfold btreeInsert
    split
    · rename_i h
      refine List.pairwise_cons.2 ⟨?_, hm⟩
      intro z hz
      rcases List.mem_cons.1 hz with rfl | hz
      · exact h
      · exact hc.lt_trans _ _ _ h (h1 z hz)
    · exact List.pairwise_cons.2 ⟨h1, h2⟩
    · rename_i h
      refine List.pairwise_cons.2 ⟨?_, ih h2⟩
      intro z hz
      rcases btreeInsert_mem hz with e | ⟨y, hy, e⟩
      · rw [e]
        have h : c.cmp k.value k'.value = .gt := h
        show c.cmp k'.value k.value = .lt
        rw [hc.cmp_swap, h]; rfl
      · rw [← e]; exact h1 y hy

theorem btreeGet_insert {k : Spanned α S} {w : W} {m : List (Spanned α S × W)} (hm : Increasing c m) (q : α) :
    btreeGet c Spanned.borrow q (btreeInsert (Spanned.cmps c) k w m) =
      if c.eq q k.value = true then some w else btreeGet c Spanned.borrow q m := by
  induction m with
  | nil =>
    simp only [btreeInsert, btreeGet, Spanned.borrow]
    cases h : c.cmp q k.value
    · simp [← hc.cmp_eq, h]
    · simp [← hc.cmp_eq, h]
    · simp [← hc.cmp_eq, h]
  | cons y m ih =>
    obtain ⟨k', w'⟩ := y
    obtain ⟨h1, h2⟩ := List.pairwise_cons.1 hm
    have hk : (Spanned.cmps c).cmp k k' = c.cmp k.value k'.value := rfl
    unfold btreeInsert
    rw [hk]
    cases h : c.cmp k.value k'.value <;> dsimp only
    · -- the new key is first
      simp only [btreeGet, Spanned.borrow]
      cases hq : c.cmp q k.value <;> dsimp only
      · rw [if_neg (by rw [← hc.cmp_eq, hq]; simp), hc.lt_trans _ _ _ hq h]
      · rw [if_pos ((hc.cmp_eq _ _).1 hq)]
      · rw [if_neg (by rw [← hc.cmp_eq, hq]; simp)]
    · simp only [btreeGet, Spanned.borrow]
      rw [← lt_of_eq_right hc ((hc.cmp_eq _ _).1 h)]
      cases hq : c.cmp q k.value <;> dsimp only
      · rw [if_neg (by rw [← hc.cmp_eq, hq]; simp)]
      · rw [if_pos ((hc.cmp_eq _ _).1 hq)]
      · rw [if_neg (by rw [← hc.cmp_eq, hq]; simp)]
    · simp only [btreeGet, Spanned.borrow]
      have ih := ih h2
      cases hq : c.cmp q k'.value <;> dsimp only
      · have : c.cmp q k.value = .lt := hc.lt_trans _ _ _ hq (by rw [hc.cmp_swap, h]; rfl)
        rw [if_neg (by rw [← hc.cmp_eq, this]; simp)]
      · have : c.cmp q k.value = .lt := by rw [hc.lt_congr _ _ _ ((hc.cmp_eq _ _).1 hq), hc.cmp_swap, h]; rfl
        rw [if_neg (by rw [← hc.cmp_eq, this]; simp)]
      · exact ih

theorem increasing_inserted (l : List (Spanned α S × W)) : Increasing c (inserted (btreeInsert (Spanned.cmps c)) l) := by
  unfold inserted
  have : ∀ (l m : List (Spanned α S × W)), Increasing c m →
      Increasing c (l.foldl (fun m kw => btreeInsert (Spanned.cmps c) kw.1 kw.2 m) m) := by
    intro l
    induction l with
    | nil => exact fun m hm => hm
    | cons x l ih => exact fun m hm => ih _ (increasing_insert hc hm)
  exact this l [] List.Pairwise.nil

/-- Looking up a plain value `q` in a `BTreeMap` keyed by spanned values gives
what was inserted last with a key whose value is equal to `q`, whatever the
spans of the keys. -/
theorem c48_btree (l : List (Spanned α S × W)) (q : α) :
    btreeGet c Spanned.borrow q (inserted (btreeInsert (Spanned.cmps c)) l) = lastFor c.eq (fun k : Spanned α S => k.value) q l := by
  suffices ∀ r : List (Spanned α S × W), btreeGet c Spanned.borrow q (inserted (btreeInsert (Spanned.cmps c)) r.reverse) =
      lastFor c.eq (fun k : Spanned α S => k.value) q r.reverse by simpa using this l.reverse
  intro r
  induction r with
  | nil => rfl
  | cons x r ih =>
    obtain ⟨k, w⟩ := x
    rw [List.reverse_cons, lastFor_snoc, ← ih]
    have : inserted (btreeInsert (Spanned.cmps c)) (r.reverse ++ [(k, w)]) =
        btreeInsert (Spanned.cmps c) k w (inserted (btreeInsert (Spanned.cmps c)) r.reverse) := by simp [inserted]
    rw [this, btreeGet_insert hc (increasing_inserted hc _)]

omit hc in
/-- The map with spanned keys is the map with plain keys, with spans added. -/
theorem c48_btree_plain (c : Cmp H α) (l : List (Spanned α S × W)) :
    (inserted (btreeInsert (Spanned.cmps c)) l).map (fun kw => (kw.1.value, kw.2)) =
      inserted (btreeInsert c) (l.map fun kw => (kw.1.value, kw.2)) := by
  have one : ∀ (k : Spanned α S) (w : W) (m : List (Spanned α S × W)),
      (btreeInsert (Spanned.cmps c) k w m).map (fun kw => (kw.1.value, kw.2)) =
        btreeInsert c k.value w (m.map fun kw => (kw.1.value, kw.2)) := by
    intro k w m
    induction m with
    | nil => rfl
    | cons y m ih =>
      simp only [btreeInsert, List.map_cons, Spanned.cmps]
      cases c.cmp k.value y.1.value <;> dsimp only [List.map_cons]
      · rfl
      · rfl
      · rw [← ih]; rfl
  unfold inserted
  rw [List.foldl_map]
  have : ∀ (l m : List (Spanned α S × W)),
      (l.foldl (fun m kw => btreeInsert (Spanned.cmps c) kw.1 kw.2 m) m).map (fun kw => (kw.1.value, kw.2)) =
        l.foldl (fun m kw => btreeInsert c kw.1.value kw.2 m) (m.map fun kw => (kw.1.value, kw.2)) := by
    intro l
    induction l with
    | nil => intro m; rfl
    | cons x l ih => intro m; rw [List.foldl_cons, ih, one]; rfl
  exact this l []

end btree

section hash
variable [DecidableEq H] {c : Cmp H α} (hc : c.Lawful)
include hc

theorem hashGet_insert {h0 : H} {k : Spanned α S} {w : W} {m : List (Spanned α S × W)} (q : α) :
    hashGet c (Spanned.cmps c) Spanned.borrow h0 q (hashInsert (Spanned.cmps c) h0 k w m) =
      if c.eq q k.value = true then some w else hashGet c (Spanned.cmps c) Spanned.borrow h0 q m := by
  induction m with
  | nil =>
    rw [hashInsert, hashGet, hashGet]
    by_cases h : c.eq q k.value = true
    · rw [if_pos h, if_pos ⟨congrFun (hc.hash _ _ h) h0, h⟩]
    · rw [if_neg h, if_neg (fun h' => h h'.2)]; rfl
  | cons y m ih =>
    obtain ⟨k', w'⟩ := y
    have hk : ((Spanned.cmps c).hash k h0 = (Spanned.cmps c).hash k' h0 ∧ (Spanned.cmps c).eq k k' = true) ↔
        c.eq k.value k'.value = true := by
      simp only [Spanned.cmps]
      exact ⟨fun h => h.2, fun h => ⟨by rw [hc.hash _ _ h], h⟩⟩
    have hq : ∀ k'' : Spanned α S, (c.hash q h0 = (Spanned.cmps c).hash k'' h0 ∧ c.eq q k''.borrow = true) ↔
        c.eq q k''.value = true := by
      intro k''
      simp only [Spanned.cmps, Spanned.borrow]
      exact ⟨fun h => h.2, fun h => ⟨by rw [hc.hash _ _ h], h⟩⟩
    unfold hashInsert
    by_cases h : c.eq k.value k'.value = true
    · rw [if_pos (hk.2 h)]
      simp only [hashGet, hq]
      by_cases h' : c.eq q k.value = true
      · rw [if_pos (hc.trans _ _ _ h' h), if_pos h']
      · have h'' : ¬ c.eq q k'.value = true := fun e => h' (hc.trans _ _ _ e (hc.symm _ _ h))
        rw [if_neg h'', if_neg h', if_neg h'']
    · rw [if_neg (fun e => h (hk.1 e))]
      simp only [hashGet, hq]
      by_cases h' : c.eq q k'.value = true
      · have h'' : ¬ c.eq q k.value = true := fun e => h (hc.trans _ _ _ (hc.symm _ _ e) h')
        rw [if_pos h', if_neg h'', if_pos h']
      · rw [if_neg h', if_neg h', ih]

/-- The same for a `HashMap`. -/
theorem c48_hash (h0 : H) (l : List (Spanned α S × W)) (q : α) :
    hashGet c (Spanned.cmps c) Spanned.borrow h0 q (inserted (hashInsert (Spanned.cmps c) h0) l) =
      lastFor c.eq (fun k : Spanned α S => k.value) q l := by
  suffices ∀ r : List (Spanned α S × W), hashGet c (Spanned.cmps c) Spanned.borrow h0 q
      (inserted (hashInsert (Spanned.cmps c) h0) r.reverse) =
      lastFor c.eq (fun k : Spanned α S => k.value) q r.reverse by simpa using this l.reverse
  intro r
  induction r with
  | nil => rfl
  | cons x r ih =>
    obtain ⟨k, w⟩ := x
    rw [List.reverse_cons, lastFor_snoc, ← ih]
    have : inserted (hashInsert (Spanned.cmps c) h0) (r.reverse ++ [(k, w)]) =
        hashInsert (Spanned.cmps c) h0 k w (inserted (hashInsert (Spanned.cmps c) h0) r.reverse) := by simp [inserted]
    rw [this, hashGet_insert hc]

end hash

/-- The properties of a node are such a map, with keys compared as strings. -/
theorem c48_properties (h : Str → H → H) (k : Spanned Str S) (v : Value S) (l : List (Spanned Str S × Value S)) :
    propInsert k v l = btreeInsert (Spanned.cmps (strCmp h)) k v l := by
  induction l with
  | nil => rfl
  | cons y l ih =>
    obtain ⟨k', v'⟩ := y
    unfold propInsert btreeInsert
    simp only [Spanned.cmps, strCmp]
    by_cases e : k.value = k'.value
    · simp [e]
    · rw [if_neg e, if_neg e, ih]
      by_cases h' : strLt k.value k'.value = true <;> simp [h', Spanned.cmps, strCmp]

/-- So a property is found by its name. -/
theorem c48_property (h : Str → H → H) (l : List (Spanned Str S × Value S)) (name : Str) :
    btreeGet (strCmp h) Spanned.borrow name (l.foldl (fun m kv => propInsert kv.1 kv.2 m) []) =
      (l.reverse.find? (fun kv => decide (name = kv.1.value))).map (·.2) := by
  have := c48_btree (S := S) (strCmp_lawful h) l name
  simp only [inserted, lastFor, ← c48_properties h] at this
  exact this

/-- Two keys with the same name, at different places. -/
example (v w : Value Nat) : btreeGet (strCmp fun s (n : Nat) => n + s.length) Spanned.borrow ['a']
    ([(⟨0, ['b']⟩, v), (⟨1, ['a']⟩, v), (⟨7, ['a']⟩, w)].foldl (fun m kv => propInsert kv.1 kv.2 m) []) = some w := by
  rw [c48_property]; rfl

end Knuffel
