import Verif.Theory.Tells
import Verif.Theory.DerivePart
/-!
# Errors of partial structs, enums and scalars
-/

set_option linter.unusedSectionVars false

namespace Knuffel
variable {E S V α β : Type} [Externals] {s : Struct E S V}

theorem tells_insertProperty {takes : Prop' E S V → Str → Bool} (name : Spanned Str S) (val : Value S) {P : DErr S → Prop} :
    ∀ (ps : List (Prop' E S V)), (∀ p ∈ ps, p.impls.Keeps) → (∀ p ∈ ps, p.Names takes) →
    (∀ i p e, ps.findIdx? (fun p => takes p name.value) = some i → ps[i]? = some p → p.flatten = false →
      ReportedBy (decodeValue p.decode p.option p.impls val) e → P e) →
    (∀ i p x e, ps.findIdx? (fun p => takes p name.value) = some i → ps[i]? = some p → p.flatten = true →
      ReportedBy (p.impls.part.insertProperty x name val) e → P e) →
    ∀ self, Tells P (fun _ => True) (insertPropertyArms name val ps self) := by
  intro ps
  induction ps with
  | nil => exact fun _ _ _ _ self => .pure trivial
  | cons p ps ih =>
    intro hk hn h1 h2 self
    have hkp := hk p (by simp)
    have hnp := hn p (by simp)
    unfold Prop'.Names at hnp
    have hrest : takes p name.value = false → ∀ self, Tells P (fun _ => True) (insertPropertyArms name val ps self) := by
      intro ht
      refine ih (fun q hq => hk q (by simp [hq])) (fun q hq => hn q (by simp [hq])) ?_ ?_
      · intro i q e hi hq
        exact h1 (i + 1) q e (by rw [List.findIdx?_cons, ht]; simp [hi]) (by simpa using hq)
      · intro i q x e hi hq
        exact h2 (i + 1) q x e (by rw [List.findIdx?_cons, ht]; simp [hi]) (by simpa using hq)
    have h0 : takes p name.value = true → (p :: ps).findIdx? (fun p => takes p name.value) = some 0 := by
      intro ht
      rw [List.findIdx?_cons, ht]; rfl
    rw [insertPropertyArms]
    refine Tells.ite (fun hf => ?_) fun hf => ?_
    · rw [if_pos hf] at hnp
      cases ht : takes p name.value with
      | false =>
        rw [show p.impls.part.insertProperty (self.field p.field) name val = pure (false, self.field p.field) from
          funext fun c => hnp.no _ _ _ _ ht, pure_bind]
        exact hrest ht _
      | true =>
        have hx : Tells P (fun r => r.1 = true) (p.impls.part.insertProperty (self.field p.field) name val) := by
          have hh := (Tells.of_keeps (hkp.insertProperty (self.field p.field) name val)).mono
            (fun e he => h2 0 p _ e (h0 ht) rfl hf he) fun _ h => h
          intro c
          have := hh c
          cases hr : p.impls.part.insertProperty (self.field p.field) name val c with
          | ok a c1 =>
            rw [hr] at this
            exact ⟨this.1, hnp.yes _ _ _ _ a.1 a.2 _ ht hr⟩
          | err e c1 => rw [hr] at this; exact this
          | panic => trivial
        refine hx.bind fun r hr => ?_
        rw [if_pos hr]
        exact .pure trivial
    · rw [if_neg hf] at hnp
      refine Tells.ite (fun he => ?_) fun he => hrest (by rw [hnp]; simpa using he) _
      refine ((Tells.of_keeps (Keeps.decodeValue hkp _ _ _)).mono (fun e he' => ?_) fun _ h => h).bind fun _ _ => .pure trivial
      exact h1 0 p e (h0 (by rw [hnp]; simpa using he)) rfl (by simpa using hf) he'

theorem tells_insertChild {takes : Child E S V → Str → Bool} (n : SpannedNode S) {P : DErr S → Prop} (self : FVal V) :
    ∀ (ps : List (Child E S V)), (∀ p ∈ ps, p.impls.Keeps ∧ ∀ n, Keeps (p.decoder n)) → (∀ p ∈ ps, p.Names takes) →
    (∀ i p e, ps.findIdx? (fun p => takes p n.value.nodeName.value) = some i → ps[i]? = some p →
      p.mode = .normal ∨ p.mode = .multi → ReportedBy (p.decoder n) e → P e) →
    (∀ i p e, ps.findIdx? (fun p => takes p n.value.nodeName.value) = some i → ps[i]? = some p →
      p.mode = .bool → FlagComplaint n e → P e) →
    (∀ i p x e, ps.findIdx? (fun p => takes p n.value.nodeName.value) = some i → ps[i]? = some p → p.mode = .flatten →
      ReportedBy (p.impls.part.insertChild x n) e → P e) →
    (∀ i p, ps.findIdx? (fun p => takes p n.value.nodeName.value) = some i → ps[i]? = some p → p.mode ≠ .flatten →
      (∃ x, self.field p.field = .some x) ∨ (p.mode = .bool ∧ self.field p.field = .bool true) → P (duplicateNode p n)) →
    Tells P (fun _ => True) (insertChildArms n ps self) := by
  intro ps
  induction ps with
  | nil => exact fun _ _ _ _ _ _ => .pure trivial
  | cons p ps ih =>
    intro hk hn h1 h2 h3 h4
    have hkp := hk p (by simp)
    have hnp := hn p (by simp)
    unfold Child.Names at hnp
    have hrest : takes p n.value.nodeName.value = false → Tells P (fun _ => True) (insertChildArms n ps self) := by
      intro ht
      have hs : ∀ i, ps.findIdx? (fun p => takes p n.value.nodeName.value) = some i →
          (p :: ps).findIdx? (fun p => takes p n.value.nodeName.value) = some (i + 1) := by
        intro i hi
        rw [List.findIdx?_cons, ht]; simp [hi]
      refine ih (fun q hq => hk q (by simp [hq])) (fun q hq => hn q (by simp [hq])) ?_ ?_ ?_ ?_
      · intro i q e hi hq
        exact h1 (i + 1) q e (hs i hi) (by simpa using hq)
      · intro i q e hi hq
        exact h2 (i + 1) q e (hs i hi) (by simpa using hq)
      · intro i q x e hi hq
        exact h3 (i + 1) q x e (hs i hi) (by simpa using hq)
      · intro i q hi hq
        exact h4 (i + 1) q (hs i hi) (by simpa using hq)
    have h0 : takes p n.value.nodeName.value = true → (p :: ps).findIdx? (fun p => takes p n.value.nodeName.value) = some 0 := by
      intro ht
      rw [List.findIdx?_cons, ht]; rfl
    rw [insertChildArms]
    refine Tells.ite (fun hf => ?_) fun hf => ?_
    · rw [if_pos hf] at hnp
      cases ht : takes p n.value.nodeName.value with
      | false =>
        rw [show p.impls.part.insertChild (self.field p.field) n = pure (false, self.field p.field) from
          funext fun c => hnp.no _ _ _ ht, pure_bind]
        simp only [Bool.false_eq_true, if_false]
        rw [setField_same]
        exact hrest ht
      | true =>
        have hx : Tells P (fun r => r.1 = true) (p.impls.part.insertChild (self.field p.field) n) := by
          have hh := (Tells.of_keeps (hkp.1.insertChild (self.field p.field) n)).mono
            (fun e he => h3 0 p _ e (h0 ht) rfl hf he) fun _ h => h
          intro c
          have := hh c
          cases hr : p.impls.part.insertChild (self.field p.field) n c with
          | ok a c1 =>
            rw [hr] at this
            exact ⟨this.1, hnp.yes _ _ _ a.1 a.2 _ ht hr⟩
          | err e c1 => rw [hr] at this; exact this
          | panic => trivial
        refine hx.bind fun r hr => ?_
        rw [if_pos hr]
        exact .pure trivial
    · rw [if_neg hf] at hnp
      refine Tells.ite (fun he => ?_) fun he => hrest (by rw [hnp]; simpa using he)
      have h0 := h0 (by rw [hnp]; simpa using he)
      refine Tells.ite (fun hb => ?_) fun hb => ?_
      · refine ((tells_flag n).mono (fun e he => h2 0 p e h0 rfl hb he) fun _ h => h).bind fun _ _ => ?_
        split
        · rename_i hx
          exact (Tells.emit (h4 0 p h0 rfl hf (Or.inr ⟨hb, hx⟩))).bind fun _ _ => .pure trivial
        · exact .pure trivial
      · have hm : p.mode = .normal ∨ p.mode = .multi := by
          cases hm : p.mode with
          | normal => exact Or.inl rfl
          | multi => exact Or.inr rfl
          | flatten => exact absurd hm hf
          | bool => exact absurd hm hb
        have hdec : Tells P (fun _ => True) ((p.decoder n >>= fun v => if p.mode = .multi then
              pure (true, self.setField p.field ((self.field p.field).push v))
              else pure (true, self.setField p.field (.some v))) : D E S _) :=
          ((Tells.of_keeps (hkp.2 n)).mono (fun e he => h1 0 p e h0 rfl hm he) fun _ h => h).bind fun _ _ =>
            Tells.ite (fun _ => .pure trivial) fun _ => .pure trivial
        by_cases hs : (self.field p.field).isSome
        · simp only [hs, if_true]
          refine (Tells.emit (h4 0 p h0 rfl hf (Or.inl ?_))).bind fun _ _ => hdec
          cases hx : self.field p.field with
          | some x => exact ⟨x, rfl⟩
          | _ => rw [hx] at hs; cases hs
        · simp only [hs]
          exact hdec

theorem tells_variant {P : DErr S → Prop} (v : Variant E S V) (node : SpannedNode S)
    (hk : match v.kind with | .unit => True | .nested _ inner => ∀ n, Keeps (inner n) | .tuple s => s.Keeps)
    (h1 : v.kind = .unit → ∀ e, FlagComplaint node e → P e)
    (h2 : ∀ o inner, v.kind = .nested o inner → (o = true → nonEmptyNode node = true) → ∀ e, ReportedBy (inner node) e → P e)
    (h3 : ∀ s, v.kind = .tuple s → Tells P (fun _ => True) (decodeContent s node)) :
    Tells P (fun _ => True) (v.arm node) := by
  unfold Variant.arm
  cases hkd : v.kind with
  | unit => exact ((tells_flag node).mono (fun e he => h1 hkd e he) fun _ h => h).bind fun _ _ => .pure trivial
  | nested o inner =>
    rw [hkd] at hk
    cases o with
    | false =>
      exact ((Tells.of_keeps (hk node)).mono (fun e he => h2 _ _ hkd (by simp) e he) fun _ h => h).bind fun _ _ => .pure trivial
    | true =>
      refine Tells.ite (fun hne => ?_) fun _ => .pure trivial
      exact ((Tells.of_keeps (hk node)).mono (fun e he => h2 _ _ hkd (fun _ => hne) e he) fun _ h => h).bind fun _ _ => .pure trivial
  | tuple s => exact (h3 s hkd).bind fun _ _ => .pure trivial

end Knuffel
