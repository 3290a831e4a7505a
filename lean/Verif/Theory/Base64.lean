import Verif.Spec.Base64
/-!
# Base 64 texts determine the bytes
-/

namespace Knuffel

theorem utf8_inj {s t : Str} (h : utf8 s = utf8 t) : s = t := by
  refine String.ofList_inj.1 (String.toByteArray_inj.1 ?_)
  show List.utf8Encode s = List.utf8Encode t
  unfold utf8 at h
  unfold List.utf8Encode
  rw [h]

theorem b64Char_inj {m n : Nat} (hm : m < 64) (hn : n < 64) (h : b64Char m = b64Char n) : m = n := by
  have : ∀ i : Fin 64, ∀ j : Fin 64, b64Char i = b64Char j → i = j := by decide +kernel
  have := this ⟨m, hm⟩ ⟨n, hn⟩ h
  exact congrArg Fin.val this

theorem b64Char_pad {n : Nat} (hn : n < 64) : b64Char n ≠ '=' := by
  have : ∀ i : Fin 64, b64Char i ≠ '=' := by decide +kernel
  exact this ⟨n, hn⟩

/-- The numbers determine each other. -/
theorem b64_first {a b : UInt8} {m n : Nat} (h : b64Char (a.toNat / 4) = b64Char (b.toNat / 4))
    (h' : b64Char (a.toNat % 4 * 16 + m) = b64Char (b.toNat % 4 * 16 + n)) (hm : m < 16) (hn : n < 16) :
    a = b ∧ m = n := by
  have ha := a.toNat_lt
  have hb := b.toNat_lt
  have h1 := b64Char_inj (by omega) (by omega) h
  have h2 := b64Char_inj (by omega) (by omega) h'
  exact ⟨UInt8.toNat_inj.1 (by omega), by omega⟩

theorem b64_second {a b : UInt8} {m n : Nat} (h : a.toNat / 16 = b.toNat / 16)
    (h' : b64Char (a.toNat % 16 * 4 + m) = b64Char (b.toNat % 16 * 4 + n)) (hm : m < 4) (hn : n < 4) :
    a = b ∧ m = n := by
  have ha := a.toNat_lt
  have hb := b.toNat_lt
  have h2 := b64Char_inj (by omega) (by omega) h'
  exact ⟨UInt8.toNat_inj.1 (by omega), by omega⟩

theorem b64_third {a b : UInt8} (h : a.toNat / 64 = b.toNat / 64) (h' : b64Char (a.toNat % 64) = b64Char (b.toNat % 64)) :
    a = b := by
  have h2 := b64Char_inj (by omega) (by omega) h'
  exact UInt8.toNat_inj.1 (by omega)

theorem b64Text_inj : ∀ {s t : List UInt8}, b64Text s = b64Text t → s = t := by
  intro s
  induction s using b64Text.induct with
  | case1 =>
    intro t h
    match t with
    | [] => rfl
    | [_] => simp [b64Text] at h
    | [_, _] => simp [b64Text] at h
    | _ :: _ :: _ :: _ => simp [b64Text] at h
  | case2 a =>
    intro t h
    match t with
    | [] => simp [b64Text] at h
    | [a'] =>
      simp only [b64Text, List.cons.injEq] at h
      rw [(b64_first (m := 0) (n := 0) h.1 h.2.1 (by omega) (by omega)).1]
    | [a', b'] =>
      simp only [b64Text, List.cons.injEq] at h
      exact absurd h.2.2.1.symm (b64Char_pad (by have := b'.toNat_lt; omega))
    | a' :: b' :: c' :: r' =>
      simp only [b64Text, List.cons.injEq] at h
      exact absurd h.2.2.1.symm (b64Char_pad (by have := c'.toNat_lt; omega))
  | case3 a b =>
    intro t h
    have hb := b.toNat_lt
    match t with
    | [] => simp [b64Text] at h
    | [a'] =>
      simp only [b64Text, List.cons.injEq] at h
      exact absurd h.2.2.1 (b64Char_pad (by omega))
    | [a', b'] =>
      have hb' := b'.toNat_lt
      simp only [b64Text, List.cons.injEq] at h
      obtain ⟨rfl, h1⟩ := b64_first h.1 h.2.1 (by omega) (by omega)
      obtain ⟨rfl, -⟩ := b64_second (m := 0) (n := 0) h1 h.2.2.1 (by omega) (by omega)
      rfl
    | a' :: b' :: c' :: r' =>
      simp only [b64Text, List.cons.injEq] at h
      exact absurd h.2.2.2.1.symm (b64Char_pad (by omega))
  | case4 a b c rest ih =>
    intro t h
    have hb := b.toNat_lt
    have hc := c.toNat_lt
    match t with
    | [] => simp [b64Text] at h
    | [a'] =>
      simp only [b64Text, List.cons.injEq] at h
      exact absurd h.2.2.1 (b64Char_pad (by omega))
    | [a', b'] =>
      simp only [b64Text, List.cons.injEq] at h
      exact absurd h.2.2.2.1 (b64Char_pad (by omega))
    | a' :: b' :: c' :: r' =>
      have hb' := b'.toNat_lt
      have hc' := c'.toNat_lt
      simp only [b64Text, List.cons.injEq] at h
      obtain ⟨rfl, h1⟩ := b64_first h.1 h.2.1 (by omega) (by omega)
      obtain ⟨rfl, h2⟩ := b64_second h1 h.2.2.1 (by omega) (by omega)
      rw [b64_third h2 h.2.2.2.1, ih h.2.2.2.2]

end Knuffel
