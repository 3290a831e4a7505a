import Verif.Theory.BlameEntry
/-!
# Two texts with the same beginning: nodes and documents
-/

set_option linter.unusedSimpArgs false
set_option linter.unusedSectionVars false
set_option linter.unusedVariables false

namespace Knuffel
open Cst

variable {O α β γ : Type} [Offset O] {C : Twin O} {k : Bool} {n : Nat}

/-! ### Errors are located in the input -/

/-- No common part, and nothing after it. -/
def noTwin (eoi : Sp O) : Twin O := ⟨eoi, eoi, [], [], []⟩

theorem tame_noTwin (eoi : Sp O) : Decent (noTwin eoi) where
  code x y w h := by simp [noTwin] at h
  tie := by intro h; simp [noTwin, chars] at h
  raw x w h := by simp [noTwin] at h
  num x w h := by simp [noTwin] at h

/-- The errors are located in the input, if this is so for all ends of the input. -/
theorem in_of_noTwin {p : P O α} (h : ∀ eoi : Sp O, In p) : In p := fun e n => h e e n

theorem in_spaceEntry : In (spaceEntry : P O _) := in_of_noTwin fun eoi => (bl_spaceEntry (n := 0) (tame_noTwin eoi)).inn
theorem in_nodeSpace : In (nodeSpace : P O _) := in_of_noTwin fun eoi => (bl_nodeSpace (k := false) (n := 0) (tame_noTwin eoi).tie).inn
theorem in_lineSpace : In (lineSpace : P O _) := in_of_noTwin fun eoi => (bl_lineSpace (k := false) (n := 0) (tame_noTwin eoi).tie).inn
theorem in_typeName : In (typeName : P O _) := in_of_noTwin fun eoi => (bl_typeName (k := false) (n := 0) (tame_noTwin eoi).code).inn
theorem in_ident : In (ident : P O _) := in_of_noTwin fun eoi => (bl_ident (n := 0) (tame_noTwin eoi).code).inn
theorem in_beginComment {c} : In (beginComment c : P O _) := in_of_noTwin fun eoi => (bl_beginComment (C := noTwin eoi) (k := false) (n := 0)).inn
theorem in_nodeTerminator : In (nodeTerminator : P O _) := in_of_noTwin fun eoi => (bl_nodeTerminator (C := noTwin eoi) (n := 0)).inn

theorem In.spanned {p : P O α} (h : In p) : In (spanned p) := fun e n => tr_spanned (h e n)
theorem In.seq {p : P O α} {q : P O β} (h : In p) (h2 : In q) : In (seq p q) := h.bind fun _ => h2.pmap
theorem In.ignoreThen {p : P O α} {q : P O β} (h : In p) (h2 : In q) : In (ignoreThen p q) := h.bind fun _ => h2
theorem In.thenIgnore {p : P O α} {q : P O β} (h : In p) (h2 : In q) : In (thenIgnore p q) := h.bind fun _ => h2.pmap

theorem in_bracedNodes {inner : P O (List (SpannedNode (Sp O)))} (h : In inner) : In (bracedNodes inner) :=
  in_just.ignoreThen (h.thenIgnore in_just).mapErrWithSpan

theorem in_nodeItem {inner : P O (List (SpannedNode (Sp O)))} (h : In inner) : In (nodeItem inner) :=
  (in_beginComment.thenIgnore in_nodeSpace.repeated).orNot.seq (In.spanned (In.pmap (In.thenIgnore
    ((((in_typeName.spanned).orNot.seq in_ident.spanned).seq in_spaceEntry.repeated).seq
      (In.orNot (In.seq (in_nodeSpace.repeated.ignoreThen (in_beginComment.thenIgnore in_nodeSpace.repeated).orNot)
        (in_bracedNodes h).spanned))) (in_nodeSpace.repeated.seq in_nodeTerminator))))

theorem in_nodesRec : ∀ m, In (nodesRec m : P O _)
  | 0 => fun e n => tr_tooDeep
  | m + 1 => fun e n => tr_pmap (tr_separatedBy (in_nodeItem (in_nodesRec m) e n) (tr_repeated (in_lineSpace e n)))

/-! ### Nodes -/

/-- A sequence whose first part takes a token of the common part. -/
theorem Bl.bindE {p p' : P O α} {f f' : α → P O β} (h : Bl C k (n + 1) p p') (hE : Eats 1 p)
    (hf : ∀ a, Bl C false n (f a) (f' a)) : Bl C k (n + 1) (Knuffel.bind p f) (Knuffel.bind p' f') := by
  refine ⟨h.inn.bind (fun a => (hf a).inn), ?_⟩
  intro u hu hn hk
  refine (h.run u hu hn hk).bind (fun a => (hf a).inn) ?_
  intro a alt w h1 h3
  have hw : w <:+ u := by
    have := h.inn.suf C.eoi (u ++ C.v)
    rw [h3] at this
    exact suf_of_append this
  have hlen := hE C.eoi _ _ h1
  rw [h3] at hlen
  simp only [List.length_append] at hlen
  exact (hf a).run w (hw.trans hu) (by omega) (by simp)

theorem bl_bracedNodes {inner inner' : P O (List (SpannedNode (Sp O)))} (h : Bl C false n inner inner') :
    Bl C false (n + 1) (bracedNodes inner) (bracedNodes inner') :=
  Bl.bindE bl_just eats_just fun _ => (h.thenIgnore bl_just).mapErrWithSpan

theorem bl_nodeItem (hT : Decent C) {inner inner' : P O (List (SpannedNode (Sp O)))} (h : Bl C false n inner inner') :
    Bl C false (n + 1) (nodeItem inner) (nodeItem inner') := by
  have hns : Bl C false (n + 1) (repeated nodeSpace) (repeated nodeSpace) := (bl_nodeSpace hT.tie).repeated
  refine (bl_beginComment.thenIgnore hns).orNot.seq (Bl.spanned (Bl.pmap (Bl.thenIgnore ?_ (hns.seq bl_nodeTerminator))))
  refine ((((bl_typeName hT.code).spanned).orNot.seq (bl_ident hT.code).spanned).seq (bl_spaceEntry hT).repeated).seq ?_
  exact Bl.orNot (Bl.seq (hns.ignoreThen (bl_beginComment.thenIgnore hns).orNot) (bl_bracedNodes h).spanned)

theorem bl_nodesRec (hT : Decent C) : ∀ n m m', n < m → n < m' → Bl C false n (nodesRec m) (nodesRec m') := by
  intro n
  induction n with
  | zero =>
    intro m m' _ _
    refine ⟨in_nodesRec m, ?_⟩
    intro u _ hn _
    have : u = [] := List.length_eq_zero_iff.1 (by omega)
    subst this
    exact Or.inl (touch_short (in_nodesRec m) (by simp))
  | succ n ih =>
    intro m m' hm hm'
    obtain ⟨m, rfl⟩ : ∃ j, m = j + 1 := ⟨m - 1, by omega⟩
    obtain ⟨m', rfl⟩ : ∃ j, m' = j + 1 := ⟨m' - 1, by omega⟩
    exact (Bl.separatedBy (bl_nodeItem hT (ih m m' (by omega) (by omega))) (bl_lineSpace hT.tie).repeated (eats_nodeItem (in_nodesRec m).suf)).pmap

theorem document_out (eoi : Sp O) (s) : document eoi s = pmap (fun ns => (⟨ns⟩ : Document (Sp O)))
    (thenIgnore (nodesRec (s.length + 1)) endP) eoi s := by
  simp only [document, pmap, thenIgnore, bind, nodes]

/-- The two documents: if the first has an error before the last tokens, so has the second. -/
theorem document_blame (hT : Decent C) {e : Loc O} (he : (document C.eoi (C.U ++ C.v)).out = .error e)
    (hl : C.v.length < e.rem) : Fails document C.eoi' (C.U ++ C.v') := by
  have hb := bl_nodesRec hT C.U.length ((C.U ++ C.v).length + 1) ((C.U ++ C.v').length + 1)
    (by simp; omega) (by simp; omega)
  have hd := ((hb.thenIgnore bl_endP).pmap (f := fun ns => (⟨ns⟩ : Document (Sp O)))).run C.U (List.suffix_refl _) (Nat.le_refl _) (by simp)
  unfold Fails
  rw [document_out] at he ⊢
  rcases hd with h | ⟨a, alt, alt', w, h1, -⟩ | ⟨_, h⟩
  · have := (touch_error' he).1 h
    omega
  · rw [he] at h1; cases h1
  · exact h

end Knuffel
