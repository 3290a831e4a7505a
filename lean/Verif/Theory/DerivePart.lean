import Verif.Theory.DeriveNode
/-!
# Derived partial structs take the names of their fields
-/

set_option linter.unusedSectionVars false

namespace Knuffel
variable {E S V α β : Type} [Externals]

theorem insertPropertyArms_no {takes} {ps : List (Prop' E S V)} (hn : ∀ p ∈ ps, p.Names takes)
    {name : Spanned Str S} {val : Value S} (h : ∀ p ∈ ps, takes p name.value = false) (self : FVal V) (c : Ctx E S) :
    insertPropertyArms name val ps self c = .ok (false, self) c := by
  induction ps with
  | nil => rfl
  | cons p ps ih =>
    have ih := ih (fun q hq => hn q (by simp [hq])) (fun q hq => h q (by simp [hq]))
    have hp := hn p (by simp)
    have ht := h p (by simp)
    unfold Prop'.Names at hp
    rw [insertPropertyArms]
    by_cases hf : p.flatten
    · rw [if_pos hf] at hp
      rw [if_pos hf, D.bind_ok (hp.no _ _ _ _ ht)]
      dsimp only
      rw [if_neg (by simp), setField_same]
      exact ih
    · rw [if_neg hf] at hp
      have hne : ¬ name.value = p.name := by rw [hp] at ht; simpa using ht
      rw [if_neg hf, if_neg hne]
      exact ih

theorem insertPropertyArms_yes {takes} {ps : List (Prop' E S V)} (hn : ∀ p ∈ ps, p.Names takes)
    {name : Spanned Str S} {val : Value S} (h : ∃ p ∈ ps, takes p name.value = true) {self y : FVal V} {b : Bool}
    {c c' : Ctx E S} (hr : insertPropertyArms name val ps self c = .ok (b, y) c') : b = true := by
  induction ps generalizing self c with
  | nil => simp at h
  | cons p ps ih =>
    have hp := hn p (by simp)
    unfold Prop'.Names at hp
    rw [insertPropertyArms] at hr
    have rest : takes p name.value = false → ∀ {self : FVal V} {c}, insertPropertyArms name val ps self c = .ok (b, y) c' → b = true := by
      intro ht self c hr
      refine ih (fun q hq => hn q (by simp [hq])) ?_ hr
      obtain ⟨q, hq, htq⟩ := h
      rcases List.mem_cons.1 hq with rfl | hq
      · rw [ht] at htq; cases htq
      · exact ⟨q, hq, htq⟩
    by_cases hf : p.flatten
    · rw [if_pos hf] at hp
      rw [if_pos hf, D.bind_ok_iff] at hr
      obtain ⟨⟨b1, y1⟩, c1, h1, hr⟩ := hr
      dsimp only at hr
      cases b1 with
      | true =>
        rw [if_pos rfl, D.pure_ok_iff] at hr
        simp only [Prod.mk.injEq] at hr
        exact hr.1.1.symm
      | false =>
        rw [if_neg (by simp)] at hr
        refine rest ?_ hr
        cases ht : takes p name.value with
        | false => rfl
        | true => have := hp.yes _ _ _ _ _ _ _ ht h1; cases this
    · rw [if_neg hf] at hp
      rw [if_neg hf] at hr
      by_cases hne : name.value = p.name
      · rw [if_pos hne, D.bind_ok_iff] at hr
        obtain ⟨x, c1, h1, hr⟩ := hr
        rw [D.pure_ok_iff] at hr
        simp only [Prod.mk.injEq] at hr
        exact hr.1.1.symm
      · rw [if_neg hne] at hr
        exact rest (by rw [hp]; simpa using hne) hr

theorem flagMatch {x : FVal V} {a b : D E S α} {c : Ctx E S} {r}
    (h : (match x with | .bool true => a | _ => b) c = r) : (x = .bool true ∧ a c = r) ∨ (x ≠ .bool true ∧ b c = r) := by
  cases x with
  | bool b =>
    cases b with
    | true => exact .inl ⟨rfl, h⟩
    | false => exact .inr ⟨by simp, h⟩
  | _ => exact .inr ⟨by simp, h⟩

theorem insertChildArms_no {takes} {ps : List (Child E S V)} (hn : ∀ p ∈ ps, p.Names takes)
    {n : SpannedNode S} (h : ∀ p ∈ ps, takes p n.value.nodeName.value = false) (self : FVal V) (c : Ctx E S) :
    insertChildArms n ps self c = .ok (false, self) c := by
  induction ps with
  | nil => rfl
  | cons p ps ih =>
    have ih := ih (fun q hq => hn q (by simp [hq])) (fun q hq => h q (by simp [hq]))
    have hp := hn p (by simp)
    have ht := h p (by simp)
    unfold Child.Names at hp
    rw [insertChildArms]
    by_cases hf : p.mode = .flatten
    · rw [if_pos hf] at hp
      rw [if_pos hf, D.bind_ok (hp.no _ _ _ ht)]
      dsimp only
      rw [if_neg (by simp), setField_same]
      exact ih
    · rw [if_neg hf] at hp
      have hne : ¬ n.value.nodeName.value = p.name := by rw [hp] at ht; simpa using ht
      rw [if_neg hf, if_neg hne]
      exact ih

theorem insertChildArms_yes {takes} {ps : List (Child E S V)} (hn : ∀ p ∈ ps, p.Names takes)
    {n : SpannedNode S} (h : ∃ p ∈ ps, takes p n.value.nodeName.value = true) {self y : FVal V} {b : Bool}
    {c c' : Ctx E S} (hr : insertChildArms n ps self c = .ok (b, y) c') : b = true := by
  induction ps generalizing self c with
  | nil => simp at h
  | cons p ps ih =>
    have hp := hn p (by simp)
    unfold Child.Names at hp
    rw [insertChildArms] at hr
    have rest : takes p n.value.nodeName.value = false →
        ∀ {self : FVal V} {c}, insertChildArms n ps self c = .ok (b, y) c' → b = true := by
      intro ht self c hr
      refine ih (fun q hq => hn q (by simp [hq])) ?_ hr
      obtain ⟨q, hq, htq⟩ := h
      rcases List.mem_cons.1 hq with rfl | hq
      · rw [ht] at htq; cases htq
      · exact ⟨q, hq, htq⟩
    by_cases hf : p.mode = .flatten
    · rw [if_pos hf] at hp
      rw [if_pos hf, D.bind_ok_iff] at hr
      obtain ⟨⟨b1, y1⟩, c1, h1, hr⟩ := hr
      dsimp only at hr
      cases b1 with
      | true =>
        rw [if_pos rfl, D.pure_ok_iff] at hr
        simp only [Prod.mk.injEq] at hr
        exact hr.1.1.symm
      | false =>
        rw [if_neg (by simp)] at hr
        refine rest ?_ hr
        cases ht : takes p n.value.nodeName.value with
        | false => rfl
        | true => have := hp.yes _ _ _ _ _ _ ht h1; cases this
    · rw [if_neg hf] at hp
      rw [if_neg hf] at hr
      by_cases hne : n.value.nodeName.value = p.name
      · rw [if_pos hne] at hr
        by_cases hb : p.mode = .bool
        · rw [if_pos hb, D.bind_ok_iff] at hr
          obtain ⟨x, c1, h1, hr⟩ := hr
          rcases flagMatch hr with ⟨-, hr⟩ | ⟨-, hr⟩
          · rw [D.bind_ok_iff] at hr
            obtain ⟨x, c2, h2, hr⟩ := hr
            rw [D.pure_ok_iff] at hr
            simp only [Prod.mk.injEq] at hr
            exact hr.1.1.symm
          · rw [D.pure_ok_iff] at hr
            simp only [Prod.mk.injEq] at hr
            exact hr.1.1.symm
        · rw [if_neg hb] at hr
          have fin : ∀ {c : Ctx E S}, ((p.decoder n >>= fun v => if p.mode = .multi then
              pure (true, self.setField p.field ((self.field p.field).push v))
              else pure (true, self.setField p.field (.some v))) : D E S _) c = .ok (b, y) c' → b = true := by
            intro c hr
            rw [D.bind_ok_iff] at hr
            obtain ⟨x, c2, h2, hr⟩ := hr
            split at hr
            · rw [D.pure_ok_iff] at hr
              simp only [Prod.mk.injEq] at hr
              exact hr.1.1.symm
            · rw [D.pure_ok_iff] at hr
              simp only [Prod.mk.injEq] at hr
              exact hr.1.1.symm
          by_cases hs : (self.field p.field).isSome
          · simp only [hs, if_true] at hr
            rw [D.bind_ok_iff] at hr
            obtain ⟨x, c2, h2, hr⟩ := hr
            exact fin hr
          · simp only [hs] at hr
            exact fin hr
      · rw [if_neg hne] at hr
        exact rest (by rw [hp]; simpa using hne) hr

/-- A derived partial struct takes the properties its fields take. -/
theorem Struct.part_takesProps {s : Struct E S V} {takes} (hn : s.PropNames takes) :
    s.part.TakesProps (fun n => s.properties.any fun p => takes p n) where
  no x name val c h := insertPropertyArms_no hn (by simpa using h) x c
  yes x name val c b y c' h hr := insertPropertyArms_yes hn (by simpa using h) hr

/-- A derived partial struct takes the children its fields take. -/
theorem Struct.part_takesChildren {s : Struct E S V} {takes} (hn : s.ChildNames takes) :
    s.part.TakesChildren (fun n => s.children.any fun p => takes p n) where
  no x node c h := insertChildArms_no hn (by simpa using h) x c
  yes x node c b y c' h hr := insertChildArms_yes hn (by simpa using h) hr

end Knuffel
