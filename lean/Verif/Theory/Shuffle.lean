import Verif.Spec.Shuffle
import Verif.Theory.SchemaValues
/-!
# Nodes in another order: helpers for C78
-/

namespace Knuffel
namespace Schema

theorem each2_congr_left {α β : Type} {R : α → α → Prop} {Q : α → β → Prop} (hR : ∀ a a', R a a' → ∀ b, Q a b ↔ Q a' b)
    {l l' : List α} (h : Each2 R l l') {xs : List β} : Each2 Q l xs ↔ Each2 Q l' xs := by
  induction h generalizing xs with
  | nil => rfl
  | cons h1 _ ih =>
    cases xs with
    | nil => exact ⟨(nomatch ·), (nomatch ·)⟩
    | cons x xs =>
      constructor
      · rintro (_ | ⟨g1, g2⟩); exact .cons ((hR _ _ h1 _).1 g1) (ih.1 g2)
      · rintro (_ | ⟨g1, g2⟩); exact .cons ((hR _ _ h1 _).2 g1) (ih.2 g2)

theorem each2_nil_iff {α β : Type} {R : α → β → Prop} {l : List α} {l' : List β} (h : Each2 R l l') : l = [] ↔ l' = [] := by
  cases h <;> simp

variable {S : Type}

theorem ShuffledNodes.nil_iff {l l' : List (SpannedNode S)} (h : ShuffledNodes l l') : l = [] ↔ l' = [] := by
  have aux : ∀ a b : List (SpannedNode S), (∀ name, Named name a = [] → Named name b = []) → a = [] → b = [] := by
    rintro a b h rfl
    cases b with
    | nil => rfl
    | cons m b => have := h m.value.nodeName.value rfl; simp [Named] at this
  exact ⟨aux _ _ fun name => (each2_nil_iff (h name)).1, aux _ _ fun name => (each2_nil_iff (h name)).2⟩

/-- The nodes with none of some names. -/
theorem ShuffledNodes.others {l l' : List (SpannedNode S)} (h : ShuffledNodes l l') (names : List Str) :
    (l.filter fun m => m.value.nodeName.value ∉ names) = [] ↔ (l'.filter fun m => m.value.nodeName.value ∉ names) = [] := by
  have aux : ∀ a b : List (SpannedNode S), (∀ name, Named name a = [] → Named name b = []) →
      (a.filter fun m => m.value.nodeName.value ∉ names) = [] → (b.filter fun m => m.value.nodeName.value ∉ names) = [] := by
    intro a b h h1
    rw [List.filter_eq_nil_iff] at h1 ⊢
    intro m hm hn
    have h2 : Named m.value.nodeName.value a = [] := by
      rw [Named, List.filter_eq_nil_iff]
      intro k hk he
      have := h1 k hk
      simp only [decide_eq_true_eq] at he hn this
      rw [he] at this
      exact this hn
    have h3 := h _ h2
    rw [Named, List.filter_eq_nil_iff] at h3
    exact h3 m hm (by simp)
  exact ⟨aux _ _ fun name => (each2_nil_iff (h name)).1, aux _ _ fun name => (each2_nil_iff (h name)).2⟩

theorem Shuffled.children {n n' : SpannedNode S} : Shuffled n n' → ShuffledNodes n.value.childNodes n'.value.childNodes := by
  rintro ⟨_, _, _, _, _, h⟩; exact h

theorem Shuffled.bare {n n' : SpannedNode S} (h : Shuffled n n') : Bare n ↔ Bare n' := by
  have hc := h.children.nil_iff
  obtain ⟨_, _, h3, h4, _, _⟩ := h
  unfold Bare
  rw [h3, h4, hc]

theorem Shuffled.nonEmpty {n n' : SpannedNode S} : Shuffled n n' → (NonEmpty n ↔ NonEmpty n') := by
  rintro ⟨_, _, h3, h4, h5, _⟩
  unfold NonEmpty
  rw [h3, h4]
  refine or_congr Iff.rfl (or_congr Iff.rfl (not_congr ?_))
  cases h : n.value.children <;> cases h' : n'.value.children <;> simp [h, h'] at h5 ⊢

variable [Externals] (ptr : Nat)

mutual
theorem decl_shuffled : ∀ (d : Decl), d.ByName → ∀ (n n' : SpannedNode S) (v : FVal Leaf), Shuffled n n' → (d.Reads ptr n v ↔ d.Reads ptr n' v)
  | .struct own c, hb, n, n', v, h => by
    rw [Decl.Reads, Decl.Reads]
    rw [Decl.ByName] at hb
    simp only [content_shuffled c hb n n' _ h]
    obtain ⟨h1, h2, _, _, _, _⟩ := h
    rw [h1, h2]
  | .enum cases, hb, n, n', v, h => by
    rw [Decl.Reads, Decl.Reads]
    rw [Decl.ByName] at hb
    exact cases_shuffled cases hb n n' v h
theorem content_shuffled : ∀ (c : Content), c.ByName → ∀ (n n' : SpannedNode S) (env : List (AttrAccess × FVal Leaf)), Shuffled n n' →
    (c.Reads ptr n env ↔ c.Reads ptr n' env)
  | .mk args rest props restProps kids restKids, hb, n, n', env, h => by
    rw [Content.ByName.eq_def] at hb
    obtain ⟨hk, hr⟩ := hb
    rw [Content.Reads.eq_def, Content.Reads.eq_def]
    have hc := h.children
    obtain ⟨_, _, h3, h4, _, _⟩ := h
    dsimp only
    rw [kids_shuffled kids hk _ _ env hc, h3, h4]
    have ho : restKids.Reads ptr (n.value.childNodes.filter fun m => m.value.nodeName.value ∉ kids.map Kid.name) env ↔
        restKids.Reads ptr (n'.value.childNodes.filter fun m => m.value.nodeName.value ∉ kids.map Kid.name) env := by
      cases restKids with
      | none => rw [RestKids.Reads, RestKids.Reads]; exact hc.others _
      | some f i => exact hr.elim
    rw [ho]
theorem kids_shuffled : ∀ (ks : List Kid), kidsByName ks → ∀ (nodes nodes' : List (SpannedNode S)) (env : List (AttrAccess × FVal Leaf)),
    ShuffledNodes nodes nodes' → (kidsRead ptr ks nodes env ↔ kidsRead ptr ks nodes' env)
  | [], _, nodes, nodes', env, h => by rw [kidsRead, kidsRead]
  | k :: ks, hb, nodes, nodes', env, h => by
    rw [kidsByName] at hb
    rw [kidsRead, kidsRead, kids_shuffled ks hb.2 _ _ env h]
    exact and_congr (exists_congr fun x => and_congr Iff.rfl (kid_shuffled k hb.1 _ _ x (h k.name))) Iff.rfl
theorem kid_shuffled : ∀ (k : Kid), k.ByName → ∀ (mine mine' : List (SpannedNode S)) (x : FVal Leaf), Each2 Shuffled mine mine' →
    (k.Reads ptr mine x ↔ k.Reads ptr mine' x)
  | .flag f, _, mine, mine', x, h => by
    rw [Kid.Reads, Kid.Reads]
    match mine, mine', h with
    | [], [], _ => rfl
    | [m], [m'], .cons h1 _ => simp [h1.bare]
    | _ :: _ :: _, _ :: _ :: _, _ => simp
  | .one f inner, hb, mine, mine', x, h => by
    rw [Kid.ByName] at hb
    rw [Kid.Reads, Kid.Reads]
    match mine, mine', h with
    | [], [], _ => rfl
    | [m], [m'], .cons h1 _ => simp [inner_shuffled inner hb m m' x h1]
    | _ :: _ :: _, _ :: _ :: _, _ => simp
  | .opt f inner, hb, mine, mine', x, h => by
    rw [Kid.ByName] at hb
    rw [Kid.Reads, Kid.Reads]
    match mine, mine', h with
    | [], [], _ => rfl
    | [m], [m'], .cons h1 _ => simp [inner_shuffled inner hb m m' _ h1]
    | _ :: _ :: _, _ :: _ :: _, _ => simp
  | .orElse f d inner, hb, mine, mine', x, h => by
    rw [Kid.ByName] at hb
    rw [Kid.Reads, Kid.Reads]
    match mine, mine', h with
    | [], [], _ => rfl
    | [m], [m'], .cons h1 _ => simp [inner_shuffled inner hb m m' _ h1]
    | _ :: _ :: _, _ :: _ :: _, _ => simp
  | .many f name inner, hb, mine, mine', x, h => by
    rw [Kid.ByName] at hb
    rw [Kid.Reads, Kid.Reads]
    have : ∀ xs, Each2 (fun m y => inner.Reads ptr m y) mine xs ↔ Each2 (fun m y => inner.Reads ptr m y) mine' xs := fun xs =>
      each2_congr_left (fun a a' ha b => inner_shuffled inner hb a a' b ha) h
    simp only [this]
theorem inner_shuffled : ∀ (i : Inner), i.ByName → ∀ (n n' : SpannedNode S) (x : FVal Leaf), Shuffled n n' → (i.Reads ptr n x ↔ i.Reads ptr n' x)
  | .type d, hb, n, n', x, h => by
    rw [Inner.ByName] at hb
    rw [Inner.Reads, Inner.Reads]; exact decl_shuffled d hb n n' x h
  | .unwrap f c, hb, n, n', x, h => by
    rw [Inner.ByName] at hb
    rw [Inner.Reads, Inner.Reads]; exact content_shuffled c hb n n' _ h
theorem cases_shuffled : ∀ (ks : List Case), casesByName ks → ∀ (n n' : SpannedNode S) (v : FVal Leaf), Shuffled n n' →
    (casesRead ptr ks n v ↔ casesRead ptr ks n' v)
  | [], _, n, n', v, h => by rw [casesRead, casesRead]
  | k :: ks, hb, n, n', v, h => by
    rw [casesByName] at hb
    rw [casesRead, casesRead, cases_shuffled ks hb.2 n n' v h, case_shuffled k hb.1 n n' v h]
    obtain ⟨h1, _, _, _, _, _⟩ := h
    rw [h1]
theorem case_shuffled : ∀ (k : Case), k.ByName → ∀ (n n' : SpannedNode S) (v : FVal Leaf), Shuffled n n' → (k.Reads ptr n v ↔ k.Reads ptr n' v)
  | .unit i, _, n, n', v, h => by rw [Case.Reads, Case.Reads, h.bare]
  | .nested i d, hb, n, n', v, h => by
    rw [Case.ByName] at hb
    rw [Case.Reads, Case.Reads]; simp only [decl_shuffled d hb n n' _ h]
  | .nestedOpt i d, hb, n, n', v, h => by
    rw [Case.ByName] at hb
    rw [Case.Reads, Case.Reads]; simp only [decl_shuffled d hb n n' _ h, h.nonEmpty]
  | .tuple i c, hb, n, n', v, h => by
    rw [Case.ByName] at hb
    rw [Case.Reads, Case.Reads]; simp only [content_shuffled c hb n n' _ h]
end

end Schema
end Knuffel
