import Verif.Theory.Reject
import Verif.Theory.Strict
/-!
# A legal beginning and the rest of the text

If a text begins with complete legal nodes, the parser reads them and then the rest, as if the
rest were the whole text.
-/

set_option linter.unusedSectionVars false

namespace Knuffel
open Cst

variable {O : Type}

section
variable [Offset O]

theorem keepNodes_append {S : Type} (a b : List (Option Unit × SpannedNode S)) :
    keepNodes (a ++ b) = keepNodes a ++ keepNodes b := by
  induction a with
  | nil => rfl
  | cons x a ih =>
    obtain ⟨_ | _, v⟩ := x <;> simp [keepNodes] at ih ⊢ <;> exact ih

theorem sepReps_body {eoi : Sp O} {all : List (Tok O)} (b : BodyC) {n k : Nat} {s t : List (Tok O)}
    (hn : s.length ≤ n) (hs : s = all.drop k) (hok : b.Ok true (chars t)) (hT : Takes s b.text t) :
    ∃ ws, keepNodes ws = b.value (spf eoi all) k ∧ ∀ vs u,
      SepReps (nodeItem (nodesRec n)) (repeated lineSpace) eoi s vs u ↔
        ∃ vs', vs = ws ++ vs' ∧ SepReps (nodeItem (nodesRec n)) (repeated lineSpace) eoi t vs' u := by
  match b with
  | .nil lines =>
    refine ⟨[], rfl, fun vs u => ?_⟩
    rw [sepReps_lines (eats_nodeItem (suf_nodesRec n)) (by simpa [BodyC.Ok] using hok) (by simpa [BodyC.text] using hT)]
    simp
  | .cons lines d c rest =>
    obtain ⟨h1, h2, h3, h4⟩ := hok
    have hT' : Takes s (Cst.linesText lines ++ (Cst.dashText d ++ (c.text ++ rest.text))) t := by
      simpa [BodyC.text] using hT
    obtain ⟨t1, g1, hT'⟩ := takes_append.1 hT'
    obtain ⟨t2, g2, hT'⟩ := takes_append.1 hT'
    obtain ⟨t3, g3, g4⟩ := takes_append.1 hT'
    have e1 := g1.drop hs
    have e2 := g2.drop e1
    have e3 := g3.drop e2
    have hc3 : chars t3 = rest.text ++ chars t := g4.chars
    have hc2 : chars t2 = c.text ++ rest.text ++ chars t := by rw [g3.chars, hc3]; simp
    have hc1 : chars t1 = Cst.dashText d ++ c.text ++ rest.text ++ chars t := by
      rw [g2.chars, hc2]; simp
    have h3' : c.Ok true (chars t3) := by rw [hc3]; exact h3
    obtain ⟨x, w, hx, hsol⟩ := node_solid h3'
    have hc2' : chars t2 = x :: (w ++ rest.text ++ chars t) := by rw [hc2, hx]; simp
    have hdash : d = none → ¬ ['/', '-'] <+: chars t1 := by
      rintro rfl
      have := takes_nil.1 g2; subst this
      rw [hc2']
      exact not_prefix_head (c := '/') rfl rfl (fun h => hsol.2.2.1 h.symm)
    have hnl : NoLine (chars t1) := by
      cases d with
      | none =>
        have := takes_nil.1 g2; subst this
        rw [hc2']
        refine ⟨noWs_lit hsol.1 hsol.2.2.1, ?_, ?_⟩
        · intro c' hc'; simp at hc'; subst hc'; exact hsol.2.1
        · exact not_prefix_head (c := '/') rfl rfl (fun h => hsol.2.2.1 h.symm)
      | some l =>
        rw [hc1]
        refine ⟨noWs_slash (by decide), ?_, ?_⟩
        · intro c' hc'; simp [Cst.dashText] at hc'; subst hc'; decide
        · rintro ⟨y, hy⟩; simp [Cst.dashText] at hy
    obtain ⟨as, p1⟩ := ok_lines (eoi := eoi) (l := lines) (s := s) (t := t1) (by rw [hc1]; exact h1) g1
      (failsC_lineSpace hnl).fails
    obtain ⟨y, p2, hy⟩ := ok_dash (eoi := eoi) (d := d) (s := t1) (t := t2)
      (by rw [hc2]; exact h2) g2 (by rw [hc2']; exact hsol.noSpace) hdash
    have hlen2 : t2.length ≤ n := by
      have := g1.length; have := g2.length
      omega
    have p3 := node_complete (eoi := eoi) (all := all) c hlen2 e2 h3' g3
    have hlen3 : t3.length < s.length := by
      have := g1.length; have := g2.length; have := g3.length
      rw [hx] at this
      simp at this
      omega
    obtain ⟨ws, hws, ih⟩ := sepReps_body (eoi := eoi) (all := all) rest (n := n) (by omega) e3 h4 g4
    have p4 : Ok (nodeItem (nodesRec n)) eoi t1 (y, c.value (spf eoi all) (k + (Cst.linesText lines).length + (Cst.dashText d).length)) t3 :=
      ok_seq.2 ⟨t2, p2, p3⟩
    refine ⟨(y, c.value (spf eoi all) (k + (Cst.linesText lines).length + (Cst.dashText d).length)) :: ws, ?_,
      fun vs u => ?_⟩
    · have e : k + (Cst.linesText lines).length + (Cst.dashText d).length =
          k + (Cst.linesText lines ++ Cst.dashText d).length := by simp; omega
      rw [e] at hws ⊢
      cases d with
      | none =>
        cases y with
        | some _ => simp at hy
        | none =>
          simp only [BodyC.value]
          rw [← hws]
          simp [keepNodes]
      | some d =>
        cases y with
        | none => simp at hy
        | some _ =>
          simp only [BodyC.value]
          rw [← hws]
          simp [keepNodes]
    · constructor
      · intro h
        cases h with
        | nil q1 q2 =>
          obtain ⟨-, rfl⟩ := q1.unique p1
          exact absurd q2.fails p4.not_fails
        | cons q1 q2 q3 q4 =>
          obtain ⟨-, rfl⟩ := q1.unique p1
          obtain ⟨rfl, rfl⟩ := q2.unique p4
          obtain ⟨vs', rfl, h⟩ := (ih _ _).1 q4
          exact ⟨vs', rfl, h⟩
      · rintro ⟨vs', rfl, h⟩
        exact .cons p1 p4 hlen3 ((ih _ _).2 ⟨vs', rfl, h⟩)

theorem nodesRec_body {eoi : Sp O} {all : List (Tok O)} (b : BodyC) {n k : Nat} {s t : List (Tok O)}
    (hn : s.length ≤ n) (hs : s = all.drop k) (hok : b.Ok true (chars t)) (hT : Takes s b.text t) {v u} :
    Ok (nodesRec (n + 1)) eoi s v u ↔
      ∃ v', Ok (nodesRec (n + 1)) eoi t v' u ∧ v = b.value (spf eoi all) k ++ v' := by
  obtain ⟨ws, hws, h⟩ := sepReps_body (eoi := eoi) (all := all) b hn hs hok hT
  have key : ∀ s vs, Ok (separatedBy (nodeItem (nodesRec n)) (repeated lineSpace)) eoi s vs u ↔
      SepReps (nodeItem (nodesRec n)) (repeated lineSpace) eoi s vs u := fun s vs =>
    ok_separatedBy (fun s => lines_total s) (eats_nodeItem (suf_nodesRec n)).consumes
  rw [nodesRec, ok_pmap]
  simp only [ok_pmap, key]
  constructor
  · rintro ⟨vs, h1, rfl⟩
    obtain ⟨vs', rfl, h2⟩ := (h _ _).1 h1
    exact ⟨_, ⟨vs', h2, rfl⟩, by rw [keepNodes_append, hws]⟩
  · rintro ⟨_, ⟨vs', h2, rfl⟩, rfl⟩
    exact ⟨ws ++ vs', (h _ _).2 ⟨vs', rfl, h2⟩, by rw [keepNodes_append, hws]⟩

/-- Legal nodes before a document. -/
theorem document_body {eoi : Sp O} (b : BodyC) {s t : List (Tok O)} (hok : b.Ok true (chars t))
    (hT : Takes s b.text t) {d} : Ok document eoi s d [] ↔
      ∃ d', Ok document eoi t d' [] ∧ d.nodes = b.value (spf eoi s) 0 ++ d'.nodes := by
  have hle := hT.length
  unfold document
  simp only [ok_pmap, ok_thenIgnore, ok_nodes]
  constructor
  · rintro ⟨v, ⟨t1, u, h1, h2⟩, rfl⟩
    obtain ⟨v', h3, rfl⟩ := (nodesRec_body b (n := s.length) (all := s) (Nat.le_refl _) (k := 0) (by simp) hok hT).1 h1
    exact ⟨_, ⟨v', ⟨t1, u, nodesRec_fuel (by omega) (by omega) h3, h2⟩, rfl⟩, rfl⟩
  · rintro ⟨_, ⟨v', ⟨t1, u, h1, h2⟩, rfl⟩, hd⟩
    refine ⟨d.nodes, ⟨t1, u, ?_, h2⟩, rfl⟩
    exact (nodesRec_body b (n := s.length) (all := s) (Nat.le_refl _) (k := 0) (by simp) hok hT).2 ⟨_, nodesRec_fuel (by omega) (by omega) h1, hd⟩

end

end Knuffel
