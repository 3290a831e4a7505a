import Verif.Props.Slices
import Verif.Props.Diag
import Verif.Props.Labels
import Verif.Props.Natural
/-!
# The regions that a report underlines

C67: the offset and the length that each label of each error hands to the reporter.
-/

namespace Knuffel
open Cst

variable {O : Type}

/-- The labels of an error of `parse`, each with the region (offset and length in bytes) that is handed
to the reporter. -/
def AnyErr.regions [Offset O] : AnyErr O → List (Str × Nat × Nat)
  | .parse e => e.labels.map fun l => (l.1, l.2.errorSpan)
  | .decode e => e.labels.map fun l => (l.1, l.2.errorSpan)

/-- The region is that of some characters of the text: as many bytes as they have, after as many bytes as
the characters before them have. -/
def Region (text : Str) (r : Nat × Nat) : Prop := ∃ u w v, text = u ++ w ++ v ∧ r = (byteLen u, byteLen w)

theorem covers_region {text : Str} {s : Sp Nat} {w : Str} (h : Covers text s w) : Region text s.errorSpan := by
  obtain ⟨u, v, h1, rfl⟩ := h
  exact ⟨u, w, v, h1, by simp [Sp.errorSpan, Offset.byte]⟩

theorem coversName_region {text : Str} {s : Sp Nat} {w : Str} (h : CoversName text s w) : Region text s.errorSpan := by
  obtain ⟨u, v, h1, rfl⟩ := h
  exact ⟨u, w, '=' :: v, h1, by simp [Sp.errorSpan, Offset.byte]⟩

theorem byteSpan_region {text : Str} {i j : Nat} (h : i ≤ j) : Region text (byteSpan text i j).errorSpan := by
  refine ⟨text.take i, (text.drop i).take (j - i), text.drop j, ?_, ?_⟩
  · rw [← List.take_add, show i + (j - i) = j by omega, List.take_append_drop]
  · have : text.take j = text.take i ++ (text.drop i).take (j - i) := by
      rw [← List.take_add, show i + (j - i) = j by omega]
    simp only [byteSpan, Sp.errorSpan, Offset.byte, Prod.mk.injEq, true_and]
    rw [this, byteLen_append]
    omega

theorem trueOf_regions {text : Str} {e : PErr Nat} (h : e.TrueOf text) : ∀ l ∈ e.labels, Region text l.2.errorSpan := by
  cases e with
  | unexpected label sp found expected =>
    simp only [PErr.labels, List.mem_singleton, forall_eq]
    cases found with
    | char c => exact covers_region h
    | eoi =>
      have h : sp = ⟨byteLen text, byteLen text⟩ := h
      rw [h]
      exact ⟨text, [], [], by simp, by simp [Sp.errorSpan, Offset.byte, byteLen]⟩
    | token w => exact covers_region h.2
    | kind k =>
      rcases h with ⟨-, n, -, h⟩ | ⟨-, w, -, h⟩
      · exact covers_region h
      · exact coversName_region h
    | openRaw n => exact h.elim
    | closeRaw n => exact h.elim
  | unclosed name openedAt opening expectedAt closing found =>
    obtain ⟨-, pre, w, after, h1, h2, ⟨p, q, h3, h4⟩, -⟩ := h
    simp only [PErr.labels, List.mem_cons, List.not_mem_nil, or_false, forall_eq_or_imp, forall_eq]
    refine ⟨covers_region (w := w) ⟨pre, after, h1, h2⟩, ?_⟩
    refine covers_region (w := []) ⟨pre ++ w ++ p, q, by rw [h1, h3]; simp, ?_⟩
    rw [h4]
    simp [byteLen_append, byteLen, Nat.add_assoc]
  | message label sp m =>
    obtain ⟨-, -, h', -, -, -, -, h⟩ := h
    simp only [PErr.labels, List.mem_singleton, forall_eq]
    exact covers_region h
  | messageWithHelp label sp m help =>
    simp only [PErr.labels, List.mem_singleton, forall_eq]
    rcases h with ⟨-, ⟨-, -, n, -, h⟩ | ⟨-, -, v, -, h⟩⟩
    · exact coversName_region h
    · exact covers_region h

/-- **C67.** Every region that is underlined for an error of `parse_ast` is that of some characters of the
text (none, at some place of the text, where something is missing). -/
theorem c67_parse_ast (text : Str) (es : List (PErr Nat)) (h : parseAst text = some (.error es)) :
    ∀ e ∈ es, ∀ l ∈ e.labels, Region text l.2.errorSpan := fun e he => trueOf_regions (c54_true text es h e he)

section
variable {α β : Type} {Ty : TypeId → Type}

/-- **C67** for `parse`: every region that is underlined for an error, be it one of the parser or one of
the decoder, is that of some characters of the text. -/
theorem c67_parse (d : ChildrenDecoder (Extensions Ty) (Sp Nat) α) (hd : PointsAtNodes d)
    (setCtx : Ctx (Extensions Ty) (Sp Nat) → Ctx (Extensions Ty) (Sp Nat)) (hs : (setCtx Ctx.new).errors = [])
    (text : Str) (es : List (AnyErr Nat)) (h : parseWithContext setCtx d text = some (.error es)) :
    ∀ e ∈ es, ∀ r ∈ e.regions, Region text r.2 := by
  intro e he r hr
  cases e with
  | decode e =>
    obtain ⟨l, hl, rfl⟩ := List.mem_map.1 hr
    obtain ⟨i, j, h1, h2, h3⟩ := c60_parse d hd setCtx hs text es h e he l hl
    rw [h3]
    exact byteSpan_region (by omega)
  | parse e =>
    obtain ⟨l, hl, rfl⟩ := List.mem_map.1 hr
    rw [c34_error_iff] at h
    rcases h with ⟨pes, h1, rfl⟩ | ⟨doc, hdoc, h⟩
    · obtain ⟨e', h2, h3⟩ := List.mem_map.1 he
      cases h3
      exact c67_parse_ast text pes h1 _ h2 l hl
    · rcases h with ⟨v, c, -, -, rfl⟩ | ⟨e', c, -, rfl⟩ <;> simp at he

theorem errorSpan_line (s : Sp LinePos) : (LinePos.toOffsetSpan s).errorSpan = s.errorSpan := rfl

theorem regions_line (e : AnyErr LinePos) : (e.mapSpan LinePos.toOffsetSpan).regions = e.regions := by
  cases e with
  | parse e => cases e <;> rfl
  | decode e => cases e <;> rfl

/-- **C67**: whether `parse` is used with line spans or with byte spans, the same regions are underlined,
with the same labels, error by error. -/
theorem c67_same (width : Char → Nat) (strWidth : Str → Nat) {h : α → β}
    {set : Ctx (Extensions Ty) (Sp LinePos) → Ctx (Extensions Ty) (Sp LinePos)}
    {set' : Ctx (Extensions Ty) (Sp Nat) → Ctx (Extensions Ty) (Sp Nat)}
    (hset : set' Ctx.new = (set Ctx.new).mapSpan LinePos.toOffsetSpan)
    {d : ChildrenDecoder (Extensions Ty) (Sp LinePos) α} {d' : ChildrenDecoder (Extensions Ty) (Sp Nat) β}
    (hd : ChildrenAgree LinePos.toOffsetSpan h d d') (text : Str) (es : List (AnyErr LinePos))
    (he : parseWithContextLine width strWidth set d text = some (.error es)) :
    ∃ es', parseWithContext set' d' text = some (.error es') ∧
      es'.map AnyErr.regions = es.map AnyErr.regions := by
  rw [c65_line width strWidth hset hd text, he]
  refine ⟨_, rfl, ?_⟩
  rw [List.map_map]
  exact List.map_congr_left fun e _ => regions_line e

end

/-- `n "äb` is not closed: one byte is underlined at offset 2, and the end of the text after 6 bytes. -/
example : ∃ es, parseAst "n \"äb".toList = some (.error es) ∧
    es.map (fun e => e.labels.map fun l => l.2.errorSpan) = [[(2, 1), (6, 0)]] := by
  have h : (match parseAst "n \"äb".toList with
    | some (.error es) => decide (es.map (fun e => e.labels.map fun l => l.2.errorSpan) = [[(2, 1), (6, 0)]])
    | _ => false) = true := by decide +kernel
  split at h
  · exact ⟨_, ‹_›, of_decide_eq_true h⟩
  · simp at h

section
open Demo

/-- The decoder of a document whose nodes should all be flags points at them, and does not look at spans;
of `ä 1` it is said that the argument, one byte after three, is not expected. -/
example : PointsAtNodes (vecChildren (checkFlagNode (E := Extensions fun _ => Unit) (S := Sp Nat))) ∧
    ChildrenAgree LinePos.toOffsetSpan (List.map id)
      (vecChildren (checkFlagNode (E := Extensions fun _ => Unit))) (vecChildren checkFlagNode) ∧
    (parseWithContext (T := fun _ => Unit) id (vecChildren checkFlagNode) "ä 1".toList).map (fun r => match r with
      | .error es => es.map AnyErr.regions
      | .ok _ => []) = some [[("unexpected argument".toList, 3, 1)]] :=
  ⟨c60_vec (fun n => Keeps.checkFlagNode n) fun P n hn => (tells_flag n).only.mono fun _ he => he.points hn,
    (c65_containers fun n => Agrees.checkFlagNode n).2, by decide +kernel⟩

end

end Knuffel
