import Verif.Model.Errors
/-!
# The order of strings and of token formats, and the sets of alternatives
-/

namespace Knuffel

/-- The order of strings is a strict linear order. -/
theorem strLt_irrefl (a : Str) : strLt a a = false := by
  induction a with
  | nil => rfl
  | cons x a ih => simp [strLt, ih]

theorem strLt_trans {a b c : Str} (h1 : strLt a b = true) (h2 : strLt b c = true) : strLt a c = true := by
  induction a generalizing b c with
  | nil => cases b <;> cases c <;> simp [strLt] at *
  | cons x a ih =>
    cases b with
    | nil => simp [strLt] at h1
    | cons y b =>
      cases c with
      | nil => simp [strLt] at h2
      | cons z c =>
        simp only [strLt] at h1 h2 ⊢
        have key : ∀ u v : Char, u.val < v.val → u ≠ v := by rintro u v h rfl; exact absurd h (UInt32.lt_irrefl _)
        by_cases hxy : x.val < y.val
        · by_cases hyz : y.val < z.val
          · rw [if_pos (UInt32.lt_trans hxy hyz)]
          · rw [if_neg hyz] at h2
            split at h2
            · rename_i e; subst e; rw [if_pos hxy]
            · simp at h2
        · rw [if_neg hxy] at h1
          split at h1
          · rename_i e; subst e
            by_cases hyz : x.val < z.val
            · rw [if_pos hyz]
            · rw [if_neg hyz] at h2 ⊢
              split at h2
              · rename_i e; rw [if_pos e]; exact ih h1 h2
              · simp at h2
          · simp at h1

theorem strLt_total (a b : Str) : strLt a b = true ∨ a = b ∨ strLt b a = true := by
  induction a generalizing b with
  | nil => cases b <;> simp [strLt]
  | cons x a ih =>
    cases b with
    | nil => simp [strLt]
    | cons y b =>
      simp only [strLt]
      by_cases hxy : x.val < y.val
      · simp [hxy]
      · by_cases hyx : y.val < x.val
        · simp [hyx]
        · have : x = y := by
            apply Char.ext
            exact UInt32.le_antisymm (UInt32.not_lt.1 hyx) (UInt32.not_lt.1 hxy)
          subst this
          rcases ih b with h | h | h
          · simp [h]
          · simp [h]
          · simp [h]

theorem strLt_iff (a b : Str) : strLt a b = true ↔ a < b := by
  induction a generalizing b with
  | nil => cases b <;> simp [strLt]
  | cons x a ih =>
    cases b with
    | nil => simp [strLt]
    | cons y b =>
      rw [strLt, List.cons_lt_cons_iff, ← ih]
      by_cases hxy : x.val < y.val
      · rw [if_pos hxy]; exact ⟨fun _ => Or.inl hxy, fun _ => rfl⟩
      · rw [if_neg hxy]
        have : ¬ x < y := hxy
        by_cases e : x = y
        · subst e; simp [this]
        · simp [e, this]

namespace TokenFormat

theorem lt_irrefl (a : TokenFormat) : a.lt a = false := by
  cases a <;> simp [lt, strLt_irrefl, tag]

theorem lt_trans {a b c : TokenFormat} (h1 : a.lt b = true) (h2 : b.lt c = true) : a.lt c = true := by
  cases a <;> cases b <;> first
    | exact absurd h1 Bool.false_ne_true
    | cases c <;> first
        | rfl
        | exact absurd h2 Bool.false_ne_true
        | exact strLt_trans h1 h2
        | (simp only [lt, decide_eq_true_eq] at h1 h2 ⊢; first | exact UInt32.lt_trans h1 h2 | exact Nat.lt_trans h1 h2)

theorem lt_total (a b : TokenFormat) : a.lt b = true ∨ a = b ∨ b.lt a = true := by
  cases a <;> cases b <;> first
    | exact Or.inl rfl
    | exact Or.inr (Or.inl rfl)
    | exact Or.inr (Or.inr rfl)
    | skip
  · rename_i x y
    simp only [lt, decide_eq_true_eq, char.injEq]
    by_cases h : x.val < y.val
    · exact Or.inl h
    · by_cases h' : y.val < x.val
      · exact Or.inr (Or.inr h')
      · exact Or.inr (Or.inl (Char.ext (UInt32.le_antisymm (UInt32.not_lt.1 h') (UInt32.not_lt.1 h))))
  · simpa only [lt, token.injEq] using strLt_total _ _
  · simpa only [lt, kind.injEq] using strLt_total _ _
  · simp only [lt, decide_eq_true_eq, openRaw.injEq]; omega
  · simp only [lt, decide_eq_true_eq, closeRaw.injEq]; omega

end TokenFormat

/-- A set of alternatives: in increasing order, so without repetition. -/
def SetSorted (l : List TokenFormat) : Prop := l.Pairwise (fun a b => a.lt b = true)

theorem SetSorted.nodup {l : List TokenFormat} (h : SetSorted l) : l.Nodup := by
  refine List.Pairwise.imp ?_ h
  rintro a _ h rfl
  rw [TokenFormat.lt_irrefl] at h
  simp at h

theorem mem_setInsert {t x : TokenFormat} {l : List TokenFormat} : x ∈ setInsert t l ↔ x = t ∨ x ∈ l := by
  induction l with
  | nil => simp [setInsert]
  | cons y l ih =>
    unfold setInsert
    split
    · rename_i e; simp [e]
    · split
      · simp
      · simp only [List.mem_cons, ih]
        constructor <;> rintro (h | h | h) <;> simp [h]

theorem sorted_setInsert {t : TokenFormat} {l : List TokenFormat} (h : SetSorted l) : SetSorted (setInsert t l) := by
  induction l with
  | nil => simp [SetSorted, setInsert]
  | cons y l ih =>
    unfold SetSorted at h ih ⊢
    rw [List.pairwise_cons] at h
    unfold setInsert
    split
    · exact List.pairwise_cons.2 h
    · rename_i hne
      split
      · rename_i hlt
        refine List.pairwise_cons.2 ⟨?_, List.pairwise_cons.2 h⟩
        intro z hz
        rcases List.mem_cons.1 hz with rfl | hz
        · exact hlt
        · exact TokenFormat.lt_trans hlt (h.1 z hz)
      · rename_i hlt
        refine List.pairwise_cons.2 ⟨?_, ih h.2⟩
        intro z hz
        rcases mem_setInsert.1 hz with rfl | hz
        · rcases TokenFormat.lt_total z y with h' | h' | h'
          · exact absurd h' hlt
          · exact absurd h' hne
          · exact h'
        · exact h.1 z hz

theorem mem_setExtend {x : TokenFormat} {l m : List TokenFormat} : x ∈ setExtend l m ↔ x ∈ l ∨ x ∈ m := by
  unfold setExtend
  induction m generalizing l with
  | nil => simp
  | cons y m ih =>
    rw [List.foldl_cons, ih, mem_setInsert, List.mem_cons]
    constructor
    · rintro ((h | h) | h) <;> simp [h]
    · rintro (h | h | h) <;> simp [h]

theorem sorted_setExtend {l m : List TokenFormat} (h : SetSorted l) : SetSorted (setExtend l m) := by
  unfold setExtend
  induction m generalizing l with
  | nil => exact h
  | cons y m ih => exact ih (sorted_setInsert h)

theorem mem_setOf {x : TokenFormat} {m : List TokenFormat} : x ∈ setOf m ↔ x ∈ m := by simp [setOf, mem_setExtend]

theorem sorted_setOf (m : List TokenFormat) : SetSorted (setOf m) := sorted_setExtend List.Pairwise.nil

/-- The alternatives that the grammar names: characters, the end of input, the
keywords, and kinds written without backticks. -/
def TokenFormat.Usual : TokenFormat → Prop
  | char _ => True
  | token s => s = "null".toList ∨ s = "true".toList ∨ s = "false".toList
  | kind s => '`' ∉ s ∧ s ≠ "end of input".toList
  | openRaw _ => False
  | closeRaw _ => False
  | eoi => True

instance (t : TokenFormat) : Decidable t.Usual := by
  cases t <;> unfold TokenFormat.Usual <;> infer_instance

/-- A set of usual alternatives. -/
def AltSet (l : List TokenFormat) : Prop := SetSorted l ∧ ∀ t ∈ l, t.Usual

theorem altSet_nil : AltSet [] := ⟨List.Pairwise.nil, by simp⟩

theorem altSet_one {t : TokenFormat} (h : t.Usual) : AltSet [t] := ⟨List.pairwise_singleton _ _, by simpa using h⟩

theorem altSet_setOf {m : List TokenFormat} (h : ∀ t ∈ m, t.Usual) : AltSet (setOf m) :=
  ⟨sorted_setOf m, fun t ht => h t (mem_setOf.1 ht)⟩

theorem altSet_opt (m : List (Option Char)) : AltSet (setOf (m.map .ofOpt)) := by
  refine altSet_setOf fun t ht => ?_
  obtain ⟨c, -, rfl⟩ := List.mem_map.1 ht
  cases c <;> trivial

theorem altSet_extend {l m : List TokenFormat} (hl : AltSet l) (hm : AltSet m) : AltSet (setExtend l m) :=
  ⟨sorted_setExtend hl.1, fun t ht => (mem_setExtend.1 ht).elim (hl.2 t) (hm.2 t)⟩

end Knuffel
