import Verif.Theory.Lex
import Verif.Theory.Progress
/-!
# Parsers that never emit errors: combinators

Space, comments, numbers and identifiers either succeed or fail; they never
record an error and go on.
-/

set_option linter.unusedSectionVars false

namespace Knuffel

variable {O α β γ : Type}

/-- The parser emits no errors. -/
def Quiet (p : P O α) : Prop := ∀ eoi s, (p eoi s).errs = []

theorem Quiet.cases {p : P O α} (h : Quiet p) (eoi s) : (∃ a t, Ok p eoi s a t) ∨ FailsC p eoi s := by
  cases hp : (p eoi s).out with
  | error e => exact Or.inr ⟨h _ _, e, hp⟩
  | ok x => exact Or.inl ⟨x.1, _, h _ _, ⟨x.2, hp⟩, rfl⟩

theorem quiet_just (c) : Quiet (just c : P O Char) := by
  intro eoi s; unfold just; split <;> (try split) <;> rfl
theorem quiet_justStr (cs) : Quiet (justStr cs : P O Unit) := by
  intro eoi s
  induction cs generalizing s with
  | nil => rfl
  | cons c cs ih =>
    unfold justStr
    split
    · split
      · exact ih _
      · rfl
    · rfl
theorem quiet_filter (f) : Quiet (filter f : P O Char) := by
  intro eoi s; unfold filter; split <;> (try split) <;> rfl
theorem quiet_filterMap (f : Sp O → Char → Except (PErr O) α) : Quiet (filterMap f) := by
  intro eoi s; unfold filterMap; split <;> (try split) <;> rfl
theorem quiet_endP : Quiet (endP : P O Unit) := by
  intro eoi s; unfold endP; split <;> rfl
theorem quiet_pmap {f : α → β} {p : P O α} (h : Quiet p) : Quiet (pmap f p) := fun eoi s => h eoi s
theorem quiet_ignored {p : P O α} (h : Quiet p) : Quiet (ignored p) := fun eoi s => h eoi s
theorem quiet_mapErr {f} {p : P O α} (h : Quiet p) : Quiet (mapErr f p) := fun eoi s => h eoi s
theorem quiet_mapErrWithSpan {f} {p : P O α} (h : Quiet p) : Quiet (mapErrWithSpan f p) :=
  fun eoi s => h eoi s
theorem quiet_mapWithSpan {f : α → Sp O → β} {p : P O α} (h : Quiet p) : Quiet (mapWithSpan f p) :=
  fun eoi s => h eoi s
theorem quiet_spanned {p : P O α} (h : Quiet p) : Quiet (spanned p) := quiet_mapWithSpan h
theorem quiet_tryMap {f : α → Sp O → Except (PErr O) β} {p : P O α} (h : Quiet p) :
    Quiet (tryMap f p) := fun eoi s => h eoi s
theorem quiet_bind {p : P O α} {f : α → P O β} (h : Quiet p) (hf : ∀ a, Quiet (f a)) :
    Quiet (bind p f) := by
  intro eoi s
  unfold bind
  simp only
  split
  · exact h _ _
  · split
    · simp [h eoi s, hf _ _ _]
    · simp [h eoi s, hf _ _ _]
theorem quiet_seq {p : P O α} {q : P O β} (h : Quiet p) (hq : Quiet q) : Quiet (seq p q) :=
  quiet_bind h (fun _ => quiet_pmap hq)
theorem quiet_ignoreThen {p : P O α} {q : P O β} (h : Quiet p) (hq : Quiet q) : Quiet (ignoreThen p q) :=
  quiet_bind h (fun _ => hq)
theorem quiet_thenIgnore {p : P O α} {q : P O β} (h : Quiet p) (hq : Quiet q) : Quiet (thenIgnore p q) :=
  quiet_bind h (fun _ => quiet_pmap hq)
theorem quiet_delimitedBy {p : P O α} {l : P O β} {r : P O γ} (h : Quiet p) (hl : Quiet l)
    (hr : Quiet r) : Quiet (delimitedBy p l r) := quiet_thenIgnore (quiet_ignoreThen hl h) hr
theorem quiet_orP {p q : P O α} (h : Quiet p) (hq : Quiet q) : Quiet (orP p q) := by
  intro eoi s
  unfold orP
  simp only
  split
  · exact h _ _
  · split
    · split
      · rfl
      · exact hq _ _
    · split
      · rw [takeA_errs]; exact h _ _
      · rw [takeA_errs]; exact hq _ _
theorem quiet_choiceGo {ps : List (P O α)} (h : ∀ p ∈ ps, Quiet p) (alt pan) :
    Quiet (choiceGo alt pan ps) := by
  induction ps generalizing alt pan with
  | nil => intro eoi s; unfold choiceGo; split <;> rfl
  | cons p ps ih =>
    intro eoi s
    unfold choiceGo
    simp only
    split
    · exact h p (by simp) _ _
    · exact ih (fun q hq => h q (by simp [hq])) _ _ _ _
theorem quiet_choice {ps : List (P O α)} (h : ∀ p ∈ ps, Quiet p) : Quiet (choice ps) :=
  quiet_choiceGo h _ _
theorem quiet_orNot {p : P O α} (h : Quiet p) : Quiet (orNot p) := by
  intro eoi s; unfold orNot; simp only; split
  · exact h _ _
  · rfl
theorem quiet_rewind {p : P O α} (h : Quiet p) : Quiet (rewind p) := by
  intro eoi s; unfold rewind; simp only; split
  · exact h _ _
  · exact h _ _
theorem quiet_repGo {p : P O α} (h : Quiet p) {mn mx eoi} : ∀ fuel {outs alt pan s},
    (repGo p mn mx eoi fuel outs [] alt pan s).errs = [] := by
  intro fuel
  induction fuel with
  | zero => intros; rfl
  | succ fuel ih =>
    intro outs alt pan s
    rw [repGo]
    split
    · rfl
    · simp only
      split
      · split
        · rw [h eoi s]; exact ih
        · simp [h eoi s]
      · split
        · simp [h eoi s]
        · rfl
theorem quiet_repeatedB {mn mx} {p : P O α} (h : Quiet p) : Quiet (repeatedB mn mx p) :=
  fun _ _ => quiet_repGo h _
theorem quiet_repeated {p : P O α} (h : Quiet p) : Quiet (repeated p) := quiet_repeatedB h
theorem quiet_takeUntil {p : P O β} (h : Quiet p) : Quiet (takeUntil p) := by
  intro eoi s
  unfold takeUntil
  have : ∀ fuel {outs alt pan s}, (takeUntilGo p eoi fuel outs alt pan s).errs = [] := by
    intro fuel
    induction fuel with
    | zero => intros; rfl
    | succ fuel ih =>
      intro outs alt pan s
      rw [takeUntilGo.eq_def]
      simp only
      split
      · exact h _ _
      · split
        · exact h _ _
        · exact ih
  exact this _
theorem quiet_tooDeep : Quiet (tooDeep : P O α) := fun _ _ => rfl

/-! ### The quiet parts of the grammar -/

theorem quiet_beginComment (c) : Quiet (beginComment c : P O Unit) :=
  quiet_ignoreThen (quiet_mapErr (quiet_just _)) (quiet_ignored (quiet_just _))
theorem quiet_newline : Quiet (newline : P O Unit) :=
  quiet_mapErr (quiet_ignored (quiet_orP (quiet_orP (quiet_orP (quiet_orP (quiet_orP
    (quiet_ignoreThen (quiet_orNot (quiet_just _)) (quiet_just _)) (quiet_just _)) (quiet_just _))
    (quiet_just _)) (quiet_just _)) (quiet_just _)))
theorem quiet_comment : Quiet (comment : P O Unit) :=
  quiet_ignored (quiet_seq (quiet_beginComment _) (quiet_takeUntil (quiet_orP quiet_newline quiet_endP)))
theorem quiet_mlCommentRec (n) : Quiet (mlCommentRec n : P O Unit) := by
  induction n with
  | zero => exact quiet_tooDeep
  | succ n ih =>
    refine quiet_delimitedBy (quiet_ignored (quiet_repeated (quiet_choice ?_)))
      (quiet_beginComment _) (quiet_justStr _)
    intro p hp
    simp only [List.mem_cons, List.not_mem_nil, or_false] at hp
    rcases hp with rfl | rfl | rfl
    · exact ih
    · exact quiet_ignored (quiet_filter _)
    · exact quiet_ignored (quiet_thenIgnore (quiet_just _) (quiet_rewind (quiet_filter _)))

end Knuffel
