import Verif.Spec.Later
import Verif.Theory.Lines
import Verif.Theory.SimInst
import Verif.Theory.Append
/-!
# The line tracker after complete lines
-/

namespace Knuffel
open Cst

theorem trackAll_endsLine (width : Char → Nat) {pre : Str} (h : EndsLine pre) :
    trackAll width .init pre = ⟨byteLen pre, false, newlines pre, 0⟩ := by
  obtain ⟨x, rfl, hx⟩ := h
  obtain ⟨h1, h2⟩ := trackAll_spec width _ (x ++ ['\n']) rfl
  generalize trackAll width .init (x ++ ['\n']) = t at h1 h2
  have hc : (linePos width (x ++ ['\n'])).column = 0 := by
    simp [linePos, currentLine_snoc, show '\n' ∈ newlineChars by decide]
  have h3 : t.caretReturn = false := by
    cases h : t.caretReturn with
    | false => rfl
    | true => have := h2.1 h; simp at this
  cases t
  simp only [trackPos, linePos, LinePos.mk.injEq] at h1 hc h3
  obtain ⟨rfl, rfl, h5⟩ := h1
  subst h3
  rw [h5, hc]

theorem lineToks_append (width : Char → Nat) (a b : Str) : ∀ t, lineToks width t (a ++ b) =
    lineToks width t a ++ lineToks width (trackAll width t a) b := by
  induction a with
  | nil => intro t; rfl
  | cons c a ih => intro t; simp only [List.cons_append, lineToks, trackAll, ih]

theorem lineToks_later (width : Char → Nat) (n k : Nat) (text : Str) : ∀ (o l : Nat) (cr : Bool) (c : Nat),
    mapToks (laterSp n k) (lineToks width ⟨o, cr, l, c⟩ text) = lineToks width ⟨o + n, cr, l + k, c⟩ text := by
  induction text with
  | nil => intros; rfl
  | cons x text ih =>
    intro o l cr c
    simp only [lineToks, mapToks, List.map_cons, LineTracker.next] at ih ⊢
    have e1 : o + x.utf8Size + n = o + n + x.utf8Size := by omega
    have e2 : l + 1 + k = l + k + 1 := by omega
    by_cases h1 : (x == '\n' && cr) = true
    · simp only [h1, if_true, ih]; simp only [laterSp, LinePos.later, e1]
    · simp only [h1, if_false, Bool.false_eq_true]
      by_cases h2 : isLineBreak x = true
      · simp only [h2, if_true, ih]; simp only [laterSp, LinePos.later, e1, e2]
      · simp only [h2, if_false, Bool.false_eq_true]
        by_cases h3 : (x == '\t') = true
        · simp only [h3, if_true, ih]; simp only [laterSp, LinePos.later, e1]
        · simp only [h3, if_false, Bool.false_eq_true, ih]; simp only [laterSp, LinePos.later, e1]

theorem lastLine_line (cs : Str) : ∀ (cr : Bool) (line k : Nat) (last : Str),
    lastLine cr (line + k) last cs = ((lastLine cr line last cs).1 + k, (lastLine cr line last cs).2) := by
  induction cs with
  | nil => intros; rfl
  | cons c cs ih =>
    intro cr line k last
    unfold lastLine
    split
    · exact ih _ _ _ _
    · split
      · rw [show line + k + 1 = line + 1 + k by omega]; exact ih _ _ _ _
      · exact ih _ _ _ _

theorem lastLine_endsLine (x w : Str) (hx : x.getLast? ≠ some '\r') : ∀ (y : Str) (line : Nat) (last : Str),
    ∀ p, x = p ++ y → ∃ l, lastLine (p.getLast? = some '\r') line last (y ++ '\n' :: w) = lastLine false l w w := by
  intro y
  induction y with
  | nil =>
    intro line last p hp
    rw [List.append_nil] at hp
    subst hp
    refine ⟨line + 1, ?_⟩
    simp only [List.nil_append, hx, decide_false]
    rw [lastLine]
    simp [show isLineBreak '\n' = true by decide]
  | cons c y ih =>
    intro line last p hp
    have hcr : decide ((p ++ [c]).getLast? = some '\r') = (c == '\r') := by
      by_cases h : c = '\r' <;> simp [h]
    have ih := fun line last => ih line last (p ++ [c]) (by simp [hp])
    simp only [hcr] at ih
    rw [List.cons_append, lastLine]
    split
    · exact ih _ _
    · split
      · exact ih _ _
      · exact ih _ _

theorem newlines_endsLine {pre : Str} (h : EndsLine pre) (w : Str) : newlines (pre ++ w) = newlines pre + newlines w := by
  obtain ⟨x, rfl, _⟩ := h
  suffices ∀ (n : Nat) (w : Str), w.length = n → newlines (x ++ ['\n'] ++ w) = newlines (x ++ ['\n']) + newlines w from this _ w rfl
  intro n
  induction n with
  | zero => intro w hw; have := List.length_eq_zero_iff.1 hw; subst this; simp [newlines]
  | succ n ih =>
    intro w hw
    rcases List.eq_nil_or_concat w with rfl | ⟨a, c, rfl⟩
    · simp at hw
    · rw [List.concat_eq_append] at hw ⊢
      have ih := ih a (by simpa using hw)
      rw [← List.append_assoc, newlines_snoc, newlines_snoc a c, ih]
      have : (x ++ ['\n'] ++ a).getLast? = some '\r' ↔ a.getLast? = some '\r' := by
        rw [List.getLast?_append]
        cases a.getLast? <;> simp
      simp only [this]
      split
      · rfl
      · split <;> omega

theorem lineEoi_later (strWidth : Str → Nat) {pre : Str} (h : EndsLine pre) (w : Str) :
    lineEoi strWidth (pre ++ w) = laterSp (byteLen pre) (newlines pre) (lineEoi strWidth w) := by
  have hb : byteLen (pre ++ w) = byteLen w + byteLen pre := by rw [byteLen_append, Nat.add_comm]
  have hpre := h
  obtain ⟨x, rfl, hx⟩ := h
  obtain ⟨l, hl⟩ := lastLine_endsLine x w hx x 0 (x ++ '\n' :: w) [] (by simp)
  have hn := newlines_endsLine hpre w
  have e0 := lastLine_spec (x ++ ['\n'] ++ w) [] 0 (x ++ ['\n'] ++ w)
  have e1 := lastLine_spec w [] 0 w
  simp only [List.getLast?_nil, reduceCtorEq, decide_false, List.nil_append, newlines, Nat.zero_add, Nat.add_zero] at e0 e1 hl
  simp only [lineEoi, laterSp, LinePos.later, hb]
  rw [e0, e1, hn, Nat.add_comm (newlines (x ++ ['\n']))]
  have e2 := lastLine_line w false 0 l w
  rw [Nat.zero_add] at e2
  have : (lastLine false 0 (x ++ ['\n'] ++ w) (x ++ ['\n'] ++ w)).2 = (lastLine false 0 w w).2 := by
    have happ : x ++ ['\n'] ++ w = x ++ '\n' :: w := by simp
    rw [happ, hl, e2]
  rw [this]

/-- A run and the run further down. -/
def laterRel (n k : Nat) (eoi : Sp LinePos) : Rel LinePos LinePos (Sp LinePos) where
  eoi := eoi
  eoi' := laterSp n k eoi
  st s s' := s' = mapToks (laterSp n k) s
  sp a b := laterSp n k a = b
  so a b := a.stop.later n k = b.stop ∧ a.start.line + k = b.start.line ∧ a.start.column = b.start.column
  g := laterSp n k
  g' := id
  st_nil h := h
  st_cons h := mapToks_cons_inv h
  sp_eoi := rfl
  sp_since := by
    rintro s _ t _ rfl _ _ rfl
    exact (spanSince_map (LinePos.later n k)).symm
  sp_g h := h
  sp_len := by rintro a _ rfl; simp [Sp.length, laterSp, LinePos.later, Offset.byte]; omega
  at_end := by rintro a _ rfl; rfl
  before := by rintro a _ m rfl; exact ⟨rfl, rfl, rfl⟩
  at_start := by
    rintro a _ rfl _
    refine ⟨?_, rfl, rfl⟩
    simp [Sp.atStart, laterSp, LinePos.later, Offset.fwd]; omega

end Knuffel
