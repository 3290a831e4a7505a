import Verif.Spec.Number
import Mathlib.Tactic.Ring
/-!
# `from_str_radix` computes the number denoted
-/

namespace Knuffel

theorem hexLow : ∀ d, d < 16 → ∀ c, "0123456789abcdef".toList[d]? = some c →
    toDigit 16 c = some d := by
  intro d hd c h
  have : ∀ d ∈ List.range 16, (("0123456789abcdef".toList[d]?).map fun c => toDigit 16 c) = some (some d) := by decide
  have := this d (List.mem_range.2 hd)
  rw [h] at this
  simpa using this

theorem hexUp : ∀ d, d < 16 → ∀ c, "0123456789ABCDEF".toList[d]? = some c →
    toDigit 16 c = some d := by
  intro d hd c h
  have : ∀ d ∈ List.range 16, (("0123456789ABCDEF".toList[d]?).map fun c => toDigit 16 c) = some (some d) := by decide
  have := this d (List.mem_range.2 hd)
  rw [h] at this
  simpa using this

theorem toDigit_lt {b c d} (h : toDigit b c = some d) : d < b := by
  unfold toDigit at h
  dsimp only at h
  split at h
  · split at h
    · cases h; assumption
    · cases h
  · cases h

theorem toDigit_mono {b c d} (hb : b ≤ 16) : toDigit b c = some d ↔ d < b ∧ toDigit 16 c = some d := by
  unfold toDigit
  dsimp only
  split
  · next x hx =>
    constructor
    · intro h
      split at h
      · cases h
        next hlt => exact ⟨hlt, by rw [if_pos (by omega)]⟩
      · cases h
    · rintro ⟨h1, h⟩
      split at h
      · cases h
        rw [if_pos h1]
      · cases h
  · simp

theorem toDigit16_char {c : Char} {d : Nat} (h : toDigit 16 c = some d) :
    "0123456789abcdef".toList[d]? = some c ∨ "0123456789ABCDEF".toList[d]? = some c := by
  have hlt := toDigit_lt h
  have hc : c.toNat < 128 := by
    by_contra hn
    have h1 : ¬ (c ≤ '9') := by intro h1; have : c.toNat ≤ 57 := h1; omega
    have h2 : ¬ (c ≤ 'z') := by intro h1; have : c.toNat ≤ 122 := h1; omega
    have h3 : ¬ (c ≤ 'Z') := by intro h1; have : c.toNat ≤ 90 := h1; omega
    simp [toDigit, h1, h2, h3] at h
  have all : ∀ k ∈ List.range 128, ∀ d ∈ List.range 16, toDigit 16 (Char.ofNat k) = some d →
      "0123456789abcdef".toList[d]? = some (Char.ofNat k) ∨ "0123456789ABCDEF".toList[d]? = some (Char.ofNat k) := by
    decide +kernel
  have := all c.toNat (List.mem_range.2 hc) d (List.mem_range.2 hlt)
  rw [Char.ofNat_toNat] at this
  exact this h

/-- `to_digit` is the usual reading of digits. -/
theorem toDigit_iff {b : Nat} (hb : b ≤ 16) (c : Char) (d : Nat) : toDigit b c = some d ↔ DigitIs b c d := by
  rw [toDigit_mono hb]
  constructor
  · rintro ⟨h1, h2⟩
    exact ⟨h1, toDigit16_char h2⟩
  · rintro ⟨h1, h2 | h2⟩
    · exact ⟨h1, hexLow d (by omega) c h2⟩
    · exact ⟨h1, hexUp d (by omega) c h2⟩

/-- The text, all of it digits, continues a number read so far. -/
inductive Cont (base : Nat) : Nat → Str → Nat → Prop where
  | nil {n : Nat} : Cont base n [] n
  | cons {n d m : Nat} {c : Char} {s : Str} (h : DigitIs base c d) (hs : Cont base (n * base + d) s m) : Cont base n (c :: s) m

theorem Cont.le {b n s m} (h : Cont b n s m) (hb : 0 < b) : n ≤ m := by
  induction h with
  | nil => exact Nat.le_refl _
  | cons h _ ih => exact Nat.le_trans (Nat.le_trans (Nat.le_mul_of_pos_right _ hb) (Nat.le_add_right _ _)) ih

theorem Cont.snoc {b n s m c d} (h : Cont b n s m) (hd : DigitIs b c d) : Cont b n (s ++ [c]) (m * b + d) := by
  induction h with
  | nil => exact .cons hd .nil
  | cons h' _ ih => exact .cons h' ih

theorem Denotes.cont {b s n} (h : Denotes b s n) : s ≠ [] ∧ Cont b 0 s n := by
  induction h with
  | one h => exact ⟨by simp, .cons h (by simpa using Cont.nil)⟩
  | snoc _ h ih => exact ⟨by simp, ih.2.snoc h⟩

theorem Cont.denotes {b n s m} (h : Cont b n s m) : ∀ t, Denotes b t n → Denotes b (t ++ s) m := by
  induction h with
  | nil => intro t ht; simpa using ht
  | cons hd _ ih =>
    intro t ht
    have := ih _ (ht.snoc hd)
    simpa using this

theorem cont_denotes {b s n} (hs : s ≠ []) (h : Cont b 0 s n) : Denotes b s n := by
  cases h with
  | nil => exact absurd rfl hs
  | cons hd h =>
    have := h.denotes _ (.one (by simpa using hd))
    simpa using this

theorem denotes_iff {b s n} : Denotes b s n ↔ s ≠ [] ∧ Cont b 0 s n :=
  ⟨Denotes.cont, fun h => cont_denotes h.1 h.2⟩

theorem checked_some {lo hi x y : Int} : checked lo hi x = some y ↔ lo ≤ x ∧ x ≤ hi ∧ y = x := by
  unfold checked
  split
  · next h => simp [h, eq_comm]
  · next h => simp only [reduceCtorEq, false_iff]; rintro ⟨h1, h2, -⟩; exact h ⟨h1, h2⟩

theorem loop_ok {lo hi : Int} {b : Nat} (hb : b ≤ 16) (hb0 : 0 < b) (hlo : lo ≤ 0) (neg : Bool) (sg : Int)
    (hsg : sg = if neg then -1 else 1) (hhi : 0 ≤ hi) :
    ∀ (s : Str) (n : Nat) (v : Int), lo ≤ sg * n → sg * n ≤ hi →
      (radixLoop lo hi b neg s (sg * n) = .ok v ↔ ∃ m : Nat, Cont b n s m ∧ v = sg * m ∧ lo ≤ v ∧ v ≤ hi) := by
  intro s
  induction s with
  | nil =>
    intro n v h1 h2
    simp only [radixLoop, Except.ok.injEq]
    constructor
    · rintro rfl; exact ⟨n, .nil, rfl, h1, h2⟩
    · rintro ⟨m, h, rfl, -⟩; cases h; rfl
  | cons c cs ih =>
    intro n v h1 h2
    rw [radixLoop]
    have hs2 : sg = 1 ∨ sg = -1 := by cases neg <;> simp_all
    -- monotonicity of the bounds
    have mono : ∀ k m : Nat, k ≤ m → lo ≤ sg * m → sg * m ≤ hi → lo ≤ sg * k ∧ sg * k ≤ hi := by
      intro k m hkm h3 h4
      have : (k : Int) ≤ m := by exact_mod_cast hkm
      rcases hs2 with rfl | rfl <;> constructor <;> omega
    cases hd : toDigit b c with
    | none =>
      simp only [reduceCtorEq, false_iff]
      rintro ⟨m, h, -⟩
      cases h with
      | cons h _ => rw [(toDigit_iff hb _ _).2 h] at hd; cases hd
    | some d =>
      dsimp only
      have e1 : sg * (n : Int) * (b : Int) = sg * ((n * b : Nat) : Int) := by push_cast; ring
      have e2 : (if neg = true then sg * ((n * b : Nat) : Int) - (d : Int) else sg * ((n * b : Nat) : Int) + (d : Int))
          = sg * ((n * b + d : Nat) : Int) := by
        cases neg <;> (simp_all; try ring)
      have hD := (toDigit_iff hb _ _).1 hd
      have back : (∃ m : Nat, Cont b n (c :: cs) m ∧ v = sg * m ∧ lo ≤ v ∧ v ≤ hi) ↔
          (∃ m : Nat, Cont b (n * b + d) cs m ∧ v = sg * m ∧ lo ≤ v ∧ v ≤ hi) := by
        constructor
        · rintro ⟨m, h, h'⟩
          cases h with
          | cons h hs =>
            rw [(toDigit_iff hb _ _).2 h] at hd
            cases hd
            exact ⟨m, hs, h'⟩
        · rintro ⟨m, h, h'⟩
          exact ⟨m, .cons hD h, h'⟩
      rw [back]
      by_cases hin : lo ≤ sg * ((n * b + d : Nat) : Int) ∧ sg * ((n * b + d : Nat) : Int) ≤ hi
      · have hin1 := mono (n * b) (n * b + d) (by omega) hin.1 hin.2
        rw [e1, checked_some.2 ⟨hin1.1, hin1.2, rfl⟩]
        dsimp only
        rw [e2, checked_some.2 ⟨hin.1, hin.2, rfl⟩]
        exact ih _ _ hin.1 hin.2
      · have hfalse : ¬ ∃ m : Nat, Cont b (n * b + d) cs m ∧ v = sg * m ∧ lo ≤ v ∧ v ≤ hi := by
          rintro ⟨m, h, rfl, h3, h4⟩
          exact hin (mono _ _ (h.le hb0) h3 h4)
        simp only [hfalse, iff_false]
        rw [e1]
        cases hc : checked lo hi (sg * ((n * b : Nat) : Int)) with
        | none => simp
        | some m =>
          obtain ⟨-, -, rfl⟩ := checked_some.1 hc
          dsimp only
          rw [e2]
          cases hc2 : checked lo hi (sg * ((n * b + d : Nat) : Int)) with
          | none => simp
          | some m =>
            obtain ⟨h3, h4, -⟩ := checked_some.1 hc2
            exact absurd ⟨h3, h4⟩ hin

theorem not_digit {b : Nat} (hb : b ≤ 16) {c : Char} (hc : c = '+' ∨ c = '-') (d : Nat) : ¬ DigitIs b c d := by
  rw [← toDigit_iff hb]
  intro h
  rw [toDigit_mono hb] at h
  rcases hc with rfl | rfl <;> exact absurd h.2 (by simp [toDigit])

theorem denotes_no_sign {b : Nat} (hb : b ≤ 16) {c : Char} (hc : c = '+' ∨ c = '-') {s : Str} {n : Nat} :
    ¬ Denotes b (c :: s) n := by
  intro h
  cases h.cont.2 with
  | cons h _ => exact not_digit hb hc _ h

/-- The numbers a text stands for. -/
theorem fromStrRadix_ok {signed : Bool} {lo hi : Int} {b : Nat} (hb : b ≤ 16) (hb0 : 0 < b) (hlo : lo ≤ 0) (hhi : 0 ≤ hi)
    (s : Str) (v : Int) :
    fromStrRadix signed lo hi b s = .ok v ↔
      ∃ minus, IntText b s minus v ∧ lo ≤ v ∧ v ≤ hi ∧ (signed = false → minus = false) := by
  have pos := fun s v => loop_ok hb hb0 hlo false 1 rfl hhi s 0 v (by simpa using hlo) (by simpa using hhi)
  have neg := fun s v => loop_ok hb hb0 hlo true (-1) rfl hhi s 0 v (by simpa using hlo) (by simpa using hhi)
  simp only [Int.mul_zero, Nat.cast_zero, one_mul] at pos neg
  -- a text without sign
  have plain : ∀ s : Str, s ≠ [] → (∀ t, s ≠ '+' :: t ∧ s ≠ '-' :: t) → (radixLoop lo hi b false s 0 = .ok v ↔
      ∃ minus, IntText b s minus v ∧ lo ≤ v ∧ v ≤ hi ∧ (signed = false → minus = false)) := by
    intro s h0 h1
    rw [pos]
    constructor
    · rintro ⟨m, h, rfl, h3, h4⟩
      exact ⟨false, .plain (cont_denotes h0 h), h3, h4, fun _ => rfl⟩
    · rintro ⟨minus, h, h3, h4, -⟩
      cases h with
      | plain h => exact ⟨_, h.cont.2, rfl, h3, h4⟩
      | plus h => exact absurd rfl (h1 _).1
      | minus h => exact absurd rfl (h1 _).2
  unfold fromStrRadix
  split
  · simp only [reduceCtorEq, false_iff]
    rintro ⟨minus, h, -⟩
    cases h with
    | plain h => exact h.cont.1 rfl
  · simp only [reduceCtorEq, false_iff]
    rintro ⟨minus, h, -⟩
    cases h with
    | plain h => exact denotes_no_sign hb (Or.inl rfl) h
    | plus h => exact h.cont.1 rfl
  · simp only [reduceCtorEq, false_iff]
    rintro ⟨minus, h, -⟩
    cases h with
    | plain h => exact denotes_no_sign hb (Or.inr rfl) h
    | minus h => exact h.cont.1 rfl
  · next cs hcs =>
    rw [pos]
    constructor
    · rintro ⟨m, h, rfl, h3, h4⟩
      refine ⟨false, .plus (cont_denotes ?_ h), h3, h4, fun _ => rfl⟩
      rintro rfl
      exact hcs rfl
    · rintro ⟨minus, h, h3, h4, -⟩
      cases h with
      | plain h => exact absurd h (denotes_no_sign hb (Or.inl rfl))
      | plus h => exact ⟨_, h.cont.2, rfl, h3, h4⟩
  · next cs hcs =>
    have key : (∃ minus, IntText b ('-' :: cs) minus v ∧ lo ≤ v ∧ v ≤ hi ∧ (signed = false → minus = false)) ↔
        signed = true ∧ ∃ m : Nat, Cont b 0 cs m ∧ v = -1 * (m : Int) ∧ lo ≤ v ∧ v ≤ hi := by
      constructor
      · rintro ⟨minus, h, h3, h4, h5⟩
        cases h with
        | plain h => exact absurd h (denotes_no_sign hb (Or.inr rfl))
        | minus h =>
          refine ⟨?_, _, h.cont.2, by omega, h3, h4⟩
          cases signed
          · exact absurd (h5 rfl) (by simp)
          · rfl
      · rintro ⟨rfl, m, h, rfl, h3, h4⟩
        have e : (-1 * (m : Int)) = -m := by omega
        rw [e] at h3 h4 ⊢
        refine ⟨true, .minus (cont_denotes ?_ h), h3, h4, by simp⟩
        rintro rfl
        exact hcs rfl
    rw [key]
    cases signed with
    | true => simp [neg]
    | false =>
      simp only [Bool.false_eq_true, if_false, false_and, iff_false]
      rw [pos]
      rintro ⟨m, h, -⟩
      cases h with
      | cons h _ => exact not_digit hb (Or.inr rfl) _ h
  · next h1 h2 h3 h4 h5 => exact plain _ h1 fun t => ⟨fun e => h4 _ e, fun e => h5 _ e⟩

theorem range_eq (ptr : Nat) (t : IntTy) : rangeOf ptr t = (t.min ptr, t.max ptr) := by
  cases t <;> simp [rangeOf, IntTy.min, IntTy.max, IntTy.signed, IntTy.bits]

theorem range_zero (ptr : Nat) (t : IntTy) : t.min ptr ≤ 0 ∧ 0 ≤ t.max ptr := by
  have h : ∀ k : Nat, (1 : Int) ≤ 2 ^ k := fun k => by
    have := Nat.one_le_two_pow (n := k)
    exact_mod_cast this
  unfold IntTy.min IntTy.max
  have h1 := h (t.bits ptr - 1)
  have h2 := h (t.bits ptr)
  split <;> constructor <;> omega

theorem tryFrom_ok (ptr : Nat) (t : IntTy) (r : Radix) (s : Str) (v : Int) :
    t.tryFrom ptr r s = .ok v ↔ FitsAs ptr t r s v := by
  have hz := range_zero ptr t
  have e : baseOf r = r.base := by cases r <;> rfl
  have hb : r.base ≤ 16 ∧ 0 < r.base := by cases r <;> decide
  unfold IntTy.tryFrom FitsAs
  rw [fromStrRadix_ok hb.1 hb.2 hz.1 hz.2, range_eq, e]
  have hu : (t ∈ unsignedTypes) ↔ t.signed = false := by cases t <;> decide
  simp only [hu]

theorem intText_unique {b : Nat} (hb : b ≤ 16) {s : Str} {m m' : Bool} {v v' : Int} (h : IntText b s m v) (h' : IntText b s m' v') :
    m = m' ∧ v = v' := by
  have cu : ∀ {n s m}, Cont b n s m → ∀ {m'}, Cont b n s m' → m = m' := by
    intro n s m h
    induction h with
    | nil => intro m' h'; cases h'; rfl
    | cons hd _ ih =>
      intro m' h'
      cases h' with
      | cons hd' hs' =>
        rw [← toDigit_iff hb] at hd hd'
        rw [hd] at hd'
        cases hd'
        exact ih hs'
  have du : ∀ {s n m}, Denotes b s n → Denotes b s m → n = m := fun h h' => cu h.cont.2 h'.cont.2
  cases h with
  | plain h =>
    cases h' with
    | plain h' => exact ⟨rfl, by rw [du h h']⟩
    | plus h' => exact absurd h (denotes_no_sign hb (Or.inl rfl))
    | minus h' => exact absurd h (denotes_no_sign hb (Or.inr rfl))
  | plus h =>
    cases h' with
    | plain h' => exact absurd h' (denotes_no_sign hb (Or.inl rfl))
    | plus h' => exact ⟨rfl, by rw [du h h']⟩
  | minus h =>
    cases h' with
    | plain h' => exact absurd h' (denotes_no_sign hb (Or.inr rfl))
    | minus h' => exact ⟨rfl, by rw [du h h']⟩

end Knuffel
