import Verif.Theory.QuietComb
import Verif.Theory.Tokens
/-!
# Parsers that never emit errors

Space, comments, numbers and identifiers either succeed or fail; they never
record an error and go on.
-/

set_option linter.unusedSectionVars false

namespace Knuffel

variable {O α β γ : Type}

section
variable [Offset O]

theorem quiet_mlComment : Quiet (mlComment : P O Unit) :=
  fun eoi s => quiet_mapErrWithSpan (quiet_mlCommentRec _) eoi s
theorem quiet_ws : Quiet (ws : P O Unit) :=
  quiet_mapErr (quiet_orP (quiet_ignored (quiet_repeatedB (quiet_ignored (quiet_filter _)))) quiet_mlComment)
theorem quiet_escLine : Quiet (escLine : P O Unit) :=
  quiet_ignoreThen (quiet_ignoreThen (quiet_just _) (quiet_repeated quiet_ws))
    (quiet_orP quiet_comment quiet_newline)
theorem quiet_nodeSpace : Quiet (nodeSpace : P O Unit) := quiet_orP quiet_ws quiet_escLine
theorem quiet_lineSpace : Quiet (lineSpace : P O Unit) :=
  quiet_orP (quiet_orP quiet_newline quiet_ws) quiet_comment
theorem quiet_nodeTerminator : Quiet (nodeTerminator : P O Unit) := by
  refine quiet_choice ?_
  intro p hp
  simp only [List.mem_cons, List.not_mem_nil, or_false] at hp
  rcases hp with rfl | rfl | rfl | rfl
  · exact quiet_newline
  · exact quiet_comment
  · exact quiet_ignored (quiet_just _)
  · exact quiet_endP
theorem quiet_rawString : Quiet (rawString : P O Str) :=
  quiet_pmap (quiet_bind (quiet_thenIgnore (quiet_ignoreThen (quiet_just _)
    (quiet_pmap (quiet_repeated (quiet_just _)))) (quiet_just _))
    (fun _ => quiet_mapErrWithSpan (quiet_takeUntil (quiet_ignoreThen (quiet_just _)
      (quiet_ignored (quiet_repeatedB (quiet_just _)))))))

theorem lines_total {eoi : Sp O} (s : List (Tok O)) :
    ∃ b t, Ok (repeated lineSpace) eoi s b t ∧ t.length ≤ s.length := by
  rcases (quiet_repeated quiet_lineSpace).cases eoi s with ⟨a, t, h⟩ | h
  · refine ⟨a, t, h, ?_⟩
    exact ((ok_repeated eats_lineSpace.consumes).1 h).1.length_le
  · exact absurd h.fails not_fails_repeated

theorem nodeSpaces_total {eoi : Sp O} (s : List (Tok O)) :
    ∃ b t, Ok (repeated nodeSpace) eoi s b t ∧ t.length ≤ s.length := by
  rcases (quiet_repeated quiet_nodeSpace).cases eoi s with ⟨a, t, h⟩ | h
  · refine ⟨a, t, h, ?_⟩
    exact ((ok_repeated eats_nodeSpace.consumes).1 h).1.length_le
  · exact absurd h.fails not_fails_repeated

end

end Knuffel
