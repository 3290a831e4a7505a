import Verif.Spec.SchemaValues
import Verif.Theory.Schema
import Verif.Theory.Natural
import Verif.Theory.Print
/-!
# The values of declared types: helpers for C73

Reading does not depend on spans; what is read from a node that comes from a text is a value of
the type; each value of the type can be written.
-/

namespace Knuffel
namespace Schema

/-! ### Spans -/

section
variable {S T : Type} [Externals] (ptr : Nat) (g : S → T)

omit [Externals] in
theorem each2_map {α β γ : Type} {R : β → γ → Prop} (f : α → β) {l : List α} {l' : List γ} :
    Each2 R (l.map f) l' ↔ Each2 (fun a c => R (f a) c) l l' := by
  constructor
  · intro h
    induction l generalizing l' with
    | nil => cases h; exact .nil
    | cons a l ih => cases h with | cons h1 h2 => exact .cons h1 (ih h2)
  · intro h
    induction h with
    | nil => exact .nil
    | cons h1 _ ih => exact .cons h1 ih

omit [Externals] in
theorem annotation_map (t : Scal) (ty : Option (Spanned TypeName S)) :
    t.Annotation (ty.map (Spanned.mapSpan g)) ↔ t.Annotation ty := by
  cases t <;> cases ty <;> simp [Scal.Annotation, Spanned.mapSpan]

theorem scal_reads_map (t : Scal) (v : Value S) (x : FVal Leaf) : t.Reads ptr (v.mapSpan g) x ↔ t.Reads ptr v x := by
  obtain ⟨ty, sp, lit⟩ := v
  unfold Scal.Reads
  rw [show (Value.mapSpan g ⟨ty, sp, lit⟩).typeName = ty.map (Spanned.mapSpan g) from rfl, annotation_map]
  cases ty <;> rfl

theorem scal_readsIn_map (t : Scal) (o : Bool) (v : Value S) (x : FVal Leaf) : t.ReadsIn ptr o (v.mapSpan g) x ↔ t.ReadsIn ptr o v x := by
  unfold Scal.ReadsIn
  simp only [scal_reads_map]
  rw [show (Value.mapSpan g v).typeName = v.typeName.map (Spanned.mapSpan g) from rfl, annotation_map]
  rfl

theorem arg_reads_map (a : ArgD) (v : Option (Value S)) (x : FVal Leaf) : a.Reads ptr (v.map (Value.mapSpan g)) x ↔ a.Reads ptr v x := by
  cases v with
  | none => rfl
  | some v => exact scal_readsIn_map ptr g _ _ _ _

theorem prop_reads_map (p : PropD) (l : List (Spanned Str S × Value S)) (x : FVal Leaf) :
    p.Reads ptr (l.map fun kv => (kv.1.mapSpan g, kv.2.mapSpan g)) x ↔ p.Reads ptr l x := by
  unfold PropD.Reads
  simp only [each2_map, scal_readsIn_map]

omit [Externals] in
theorem bare_map (n : SpannedNode S) : Bare (mapNode g n) ↔ Bare n := by
  simp [Bare, mapNode_arguments, mapNode_properties, mapNode_childNodes]

omit [Externals] in
theorem nonEmpty_map (n : SpannedNode S) : NonEmpty (mapNode g n) ↔ NonEmpty n := by
  simp [NonEmpty, mapNode_arguments, mapNode_properties, mapNode_children]

omit [Externals] in
theorem filter_name_map (nodes : List (SpannedNode S)) (P : Str → Prop) [DecidablePred P] :
    ((nodes.map (mapNode g)).filter fun m => P m.value.nodeName.value) = (nodes.filter fun m => P m.value.nodeName.value).map (mapNode g) := by
  rw [List.filter_map]
  congr 1
  apply List.filter_congr
  intro m _
  simp [mapNode_nodeName, Spanned.mapSpan]

mutual
theorem decl_spans : ∀ (d : Decl) (n : SpannedNode S) (v : FVal Leaf), d.Reads ptr (mapNode g n) v ↔ d.Reads ptr n v
  | .struct own c, n, v => by
    rw [Decl.Reads, Decl.Reads]
    simp only [content_spans c, mapNode_nodeName, mapNode_typeName, Option.map_map]
    rfl
  | .enum cases, n, v => by
    rw [Decl.Reads, Decl.Reads]
    exact cases_spans cases n v
theorem content_spans : ∀ (c : Content) (n : SpannedNode S) (env : List (AttrAccess × FVal Leaf)), c.Reads ptr (mapNode g n) env ↔ c.Reads ptr n env
  | .mk args rest props restProps kids restKids, n, env => by
    rw [Content.Reads.eq_def, Content.Reads.eq_def]
    have hf : ∀ (P : Str → Prop) [DecidablePred P],
        ((n.value.properties.map fun kv => (kv.1.mapSpan g, kv.2.mapSpan g)).filter fun q => P q.1.value) =
          (n.value.properties.filter fun q => P q.1.value).map fun kv => (kv.1.mapSpan g, kv.2.mapSpan g) := by
      intro P _
      rw [List.filter_map]; rfl
    simp only [mapNode_arguments, mapNode_properties, mapNode_childNodes, List.getElem?_map, arg_reads_map, List.length_map]
    rw [kids_spans kids, filter_name_map g n.value.childNodes (fun s => s ∉ kids.map Kid.name), restKids_spans restKids]
    have hq : (∀ q ∈ n.value.properties.map (fun kv => (kv.1.mapSpan g, kv.2.mapSpan g)), q.1.value ∈ props.map (·.name)) ↔
        ∀ q ∈ n.value.properties, q.1.value ∈ props.map (·.name) := by
      simp only [List.forall_mem_map, Spanned.mapSpan]
    refine and_congr Iff.rfl (and_congr Iff.rfl (and_congr ?_ (and_congr ?_ (and_congr ?_ Iff.rfl))))
    · cases rest with
      | none => rfl
      | some r => simp only [← List.map_drop, each2_map, scal_reads_map]
    · refine forall_congr' fun p => imp_congr Iff.rfl (exists_congr fun x => and_congr Iff.rfl ?_)
      rw [hf (fun s => s = p.name), prop_reads_map]
    · cases restProps with
      | none => exact hq
      | some r =>
        dsimp only
        rw [hf (fun s => s ∉ props.map (·.name))]
        simp only [each2_map, scal_reads_map]
        rfl
theorem kids_spans : ∀ (ks : List Kid) (nodes : List (SpannedNode S)) (env : List (AttrAccess × FVal Leaf)),
    kidsRead ptr ks (nodes.map (mapNode g)) env ↔ kidsRead ptr ks nodes env
  | [], nodes, env => by rw [kidsRead, kidsRead]
  | k :: ks, nodes, env => by
    rw [kidsRead, kidsRead, kids_spans ks, filter_name_map g nodes (fun s => s = k.name)]
    simp only [kid_spans k]
theorem kid_spans : ∀ (k : Kid) (mine : List (SpannedNode S)) (x : FVal Leaf), k.Reads ptr (mine.map (mapNode g)) x ↔ k.Reads ptr mine x
  | .flag f, mine, x => by
    rw [Kid.Reads, Kid.Reads]
    simp [bare_map]
  | .one f inner, mine, x => by
    rw [Kid.Reads, Kid.Reads]
    match mine with
    | [] => simp
    | [m] => simp [inner_spans inner]
    | _ :: _ :: _ => simp
  | .opt f inner, mine, x => by
    rw [Kid.Reads, Kid.Reads]
    match mine with
    | [] => simp
    | [m] => simp [inner_spans inner]
    | _ :: _ :: _ => simp
  | .orElse f d inner, mine, x => by
    rw [Kid.Reads, Kid.Reads]
    match mine with
    | [] => simp
    | [m] => simp [inner_spans inner]
    | _ :: _ :: _ => simp
  | .many f name inner, mine, x => by
    rw [Kid.Reads, Kid.Reads]
    simp only [each2_map, inner_spans inner]
theorem restKids_spans : ∀ (r : RestKids) (others : List (SpannedNode S)) (env : List (AttrAccess × FVal Leaf)),
    r.Reads ptr (others.map (mapNode g)) env ↔ r.Reads ptr others env
  | .none, others, env => by rw [RestKids.Reads, RestKids.Reads]; simp
  | .some f inner, others, env => by
    rw [RestKids.Reads, RestKids.Reads]
    simp only [each2_map, inner_spans inner]
theorem inner_spans : ∀ (i : Inner) (n : SpannedNode S) (x : FVal Leaf), i.Reads ptr (mapNode g n) x ↔ i.Reads ptr n x
  | .type d, n, x => by rw [Inner.Reads, Inner.Reads]; exact decl_spans d n x
  | .unwrap f c, n, x => by rw [Inner.Reads, Inner.Reads]; exact content_spans c n _
theorem cases_spans : ∀ (ks : List Case) (n : SpannedNode S) (v : FVal Leaf), casesRead ptr ks (mapNode g n) v ↔ casesRead ptr ks n v
  | [], n, v => by rw [casesRead, casesRead]
  | k :: ks, n, v => by
    rw [casesRead, casesRead, cases_spans ks, case_spans k, mapNode_nodeName]
    rfl
theorem case_spans : ∀ (k : Case) (n : SpannedNode S) (v : FVal Leaf), k.Reads ptr (mapNode g n) v ↔ k.Reads ptr n v
  | .unit i, n, v => by rw [Case.Reads, Case.Reads, bare_map]
  | .nested i d, n, v => by rw [Case.Reads, Case.Reads]; simp only [decl_spans d]
  | .nestedOpt i d, n, v => by rw [Case.Reads, Case.Reads]; simp only [decl_spans d, nonEmpty_map]
  | .tuple i c, n, v => by rw [Case.Reads, Case.Reads]; simp only [content_spans c]
end

end

/-! ### What is read is a value of the type -/

section
variable [Externals] (ptr : Nat) {T : TypeName → Prop}

omit [Externals] in
theorem printableNodes_iff : ∀ l : List (SpannedNode Unit), PrintableNodes T l ↔ ∀ m ∈ l, m.value.Printable T
  | [] => by simp [PrintableNodes]
  | ⟨_, n⟩ :: l => by
    rw [PrintableNodes, printableNodes_iff l]
    simp

omit [Externals] in
theorem printable_iff (n : Node Unit) : n.Printable T ↔ (∀ t, n.typeName = some t → T t.value) ∧ (∀ v ∈ n.arguments, v.Printable T) ∧
    (∀ kv ∈ n.properties, kv.2.Printable T) ∧ (n.properties.map (·.1.value)).Pairwise (· < ·) ∧ ∀ m ∈ n.childNodes, m.value.Printable T := by
  obtain ⟨ty, name, args, props, children⟩ := n
  rw [Node.Printable]
  cases children with
  | none =>
    rw [PrintableChildren]
    have : ∀ m ∈ (Node.mk ty name args props none).childNodes, m.value.Printable T := fun m hm => absurd hm (List.not_mem_nil)
    exact ⟨fun h => ⟨h.1, h.2.1, h.2.2.1, h.2.2.2.1, this⟩, fun h => ⟨h.1, h.2.1, h.2.2.1, h.2.2.2.1, trivial⟩⟩
  | some b =>
    obtain ⟨sp, l⟩ := b
    rw [PrintableChildren, printableNodes_iff]
    rfl

omit [Externals] in
theorem each2_right {α β : Type} {R : α → β → Prop} {l : List α} {l' : List β} (h : Each2 R l l') {b : β} (hb : b ∈ l') : ∃ a ∈ l, R a b := by
  induction h with
  | nil => cases hb
  | cons h1 _ ih =>
    rcases List.mem_cons.1 hb with rfl | hb
    · exact ⟨_, by simp, h1⟩
    · obtain ⟨a, ha, hR⟩ := ih hb
      exact ⟨a, by simp [ha], hR⟩

theorem scal_has {t : Scal} {v : Value Unit} {x : FVal Leaf} (hp : v.Printable T) (h : t.Reads ptr v x) : t.Has ptr x := by
  obtain ⟨h1, h2⟩ := h
  cases t with
  | int t =>
    obtain ⟨r, ds, n, -, ⟨_, -, h3, h4, -⟩, rfl⟩ := h2
    exact ⟨n, rfl, h3, h4⟩
  | float t =>
    obtain ⟨s, hs, hf, rfl⟩ := h2
    have := hp.2
    rw [hs] at this
    exact ⟨s, rfl, hf, this⟩
  | bool => obtain ⟨b, -, rfl⟩ := h2; exact ⟨b, rfl⟩
  | text => obtain ⟨b, -, rfl⟩ := h2; exact ⟨b, rfl⟩
  | choice _ vs => obtain ⟨s, w, -, h3, rfl⟩ := h2; exact ⟨s, w, h3, rfl⟩
  | str parse => obtain ⟨s, -, h3⟩ := h2; exact ⟨s, h3⟩
  | bytes =>
    obtain ⟨s, b, -, rfl, h3⟩ := h2
    refine ⟨s, b, rfl, ?_⟩
    split at h3
    · exact .inl h3
    · exact .inr h3.2

theorem scal_hasIn {t : Scal} {o : Bool} {v : Value Unit} {x : FVal Leaf} (hp : v.Printable T) (h : t.ReadsIn ptr o v x) : t.HasIn ptr o x := by
  unfold Scal.ReadsIn at h
  unfold Scal.HasIn
  cases o with
  | false => exact scal_has ptr hp h
  | true =>
    rcases h with ⟨-, -, rfl⟩ | ⟨y, h, rfl⟩
    · exact .inl rfl
    · exact .inr ⟨y, scal_has ptr hp h, rfl⟩

omit [Externals] in
theorem each2_pairs {R : Value Unit → FVal Leaf → Prop} {l : List (Spanned Str Unit × Value Unit)} {xs : List (FVal Leaf × FVal Leaf)}
    (h : Each2 (fun q x => x.1 = .leaf (.text q.1.value) ∧ R q.2 x.2) l xs) :
    ∃ kvs : List (Str × FVal Leaf), xs = kvs.map (fun kv => (.leaf (.text kv.1), kv.2)) ∧ kvs.map (·.1) = l.map (·.1.value) ∧
      ∀ kv ∈ kvs, ∃ q ∈ l, q.1.value = kv.1 ∧ R q.2 kv.2 := by
  induction h with
  | nil => exact ⟨[], rfl, rfl, by simp⟩
  | @cons q x as bs h1 h2 ih =>
    obtain ⟨kvs, rfl, h4, h5⟩ := ih
    refine ⟨(q.1.value, x.2) :: kvs, ?_, by simp [h4], ?_⟩
    · rw [List.map_cons, ← h1.1]
    · intro kv hkv
      rcases List.mem_cons.1 hkv with rfl | hkv
      · exact ⟨q, by simp, rfl, h1.2⟩
      · obtain ⟨q', hq', h6⟩ := h5 kv hkv
        exact ⟨q', by simp [hq'], h6⟩

mutual
theorem decl_has : ∀ (d : Decl) (full : Bool) (n : SpannedNode Unit) (v : FVal Leaf), n.value.Printable ReadableType →
    (full = true → NonEmpty n) → d.Reads ptr n v → d.Has ptr n.value.nodeName.value full v
  | .struct own c, full, n, v => by
    intro hp hf h
    rw [Decl.Reads] at h
    rw [Decl.Has]
    obtain ⟨a, t, env, rfl, h1, h2, h3⟩ := h
    refine ⟨a, t, env, rfl, h1, ⟨_, ?_, h2⟩, content_has c n env hp h3⟩
    intro tn htn
    rw [Option.map_eq_some_iff] at htn
    obtain ⟨t', ht', rfl⟩ := htn
    exact ((printable_iff _).1 hp).1 t' ht'
  | .enum cases, full, n, v => by
    intro hp hf h
    rw [Decl.Reads] at h
    rw [Decl.Has]
    exact cases_have cases full n v hp hf h
theorem content_has : ∀ (c : Content) (n : SpannedNode Unit) (env : List (AttrAccess × FVal Leaf)), n.value.Printable ReadableType →
    c.Reads ptr n env → c.Has ptr env
  | .mk args rest props restProps kids restKids, n, env => by
    intro hp h
    rw [Content.Reads.eq_def] at h
    rw [Content.Has.eq_def]
    obtain ⟨h1, h2, h3, h4, h5, h6, h7⟩ := h
    obtain ⟨-, p2, p3, p4, p5⟩ := (printable_iff _).1 hp
    refine ⟨h1, ⟨n.value.arguments.length, ?_, ?_⟩, ?_, ?_, kids_have kids _ env p5 h6, ?_⟩
    · intro i a ha
      obtain ⟨x, hx, hr⟩ := h2 i a ha
      refine ⟨x, hx, ?_⟩
      split
      · next hi =>
        rw [List.getElem?_eq_getElem hi] at hr
        exact scal_hasIn ptr (p2 _ (List.getElem_mem hi)) hr
      · next hi =>
        rw [List.getElem?_eq_none (by omega)] at hr
        exact hr
    · cases rest with
      | none => trivial
      | some r =>
        obtain ⟨xs, hx, he⟩ := h3
        refine ⟨xs, hx, ?_, ?_⟩
        · intro hne
          have hl := he.length
          rw [List.length_drop] at hl
          have : xs.length ≠ 0 := by simpa using hne
          omega
        · intro x hxs
          obtain ⟨v, hv, hr⟩ := each2_right he hxs
          exact scal_has ptr (p2 v (List.mem_of_mem_drop hv)) hr
    · intro p hpp
      obtain ⟨x, hx, ys, he, hl⟩ := h4 p hpp
      refine ⟨x, hx, ?_⟩
      split at hl
      · next y hy =>
        subst hl
        obtain ⟨q, hq, hr⟩ := each2_right he (List.mem_of_getLast? hy)
        exact .inl (scal_hasIn ptr (p3 q (List.mem_filter.1 hq).1) hr)
      · exact .inr hl
    · cases restProps with
      | none => trivial
      | some r =>
        obtain ⟨xs, hx, he⟩ := h5
        obtain ⟨kvs, rfl, hk, hall⟩ := each2_pairs he
        refine ⟨kvs, hx, ?_, ?_⟩
        · rw [hk]
          exact p4.sublist (List.filter_sublist.map _)
        · intro kv hkv
          obtain ⟨q, hq, hqk, hr⟩ := hall kv hkv
          rw [List.mem_filter] at hq
          refine ⟨?_, scal_has ptr (p3 q hq.1) hr⟩
          rw [← hqk]
          simpa using hq.2
    · refine restKids_have restKids _ _ env ?_ h7
      intro m hm
      rw [List.mem_filter] at hm
      exact ⟨p5 m hm.1, by simpa using hm.2⟩
theorem kids_have : ∀ (ks : List Kid) (nodes : List (SpannedNode Unit)) (env : List (AttrAccess × FVal Leaf)),
    (∀ m ∈ nodes, m.value.Printable ReadableType) → kidsRead ptr ks nodes env → kidsHave ptr ks env
  | [], nodes, env => by intros; rw [kidsHave]; trivial
  | k :: ks, nodes, env => by
    intro hp h
    rw [kidsRead] at h
    rw [kidsHave]
    obtain ⟨⟨x, hx, hr⟩, h⟩ := h
    refine ⟨⟨x, hx, kid_has k _ x ?_ hr⟩, kids_have ks nodes env hp h⟩
    intro m hm
    rw [List.mem_filter] at hm
    exact ⟨hp m hm.1, by simpa using hm.2⟩
theorem kid_has : ∀ (k : Kid) (mine : List (SpannedNode Unit)) (x : FVal Leaf),
    (∀ m ∈ mine, m.value.Printable ReadableType ∧ m.value.nodeName.value = k.name) → k.Reads ptr mine x → k.Has ptr x
  | .flag f, mine, x => by
    intro _ h
    rw [Kid.Reads] at h
    rw [Kid.Has]
    exact ⟨_, h.1⟩
  | .one f inner, mine, x => by
    intro hp h
    rw [Kid.Reads] at h
    rw [Kid.Has]
    obtain ⟨m, rfl, hr⟩ := h
    obtain ⟨p1, p2⟩ := hp m (by simp)
    have := inner_has inner m x p1 hr
    rwa [p2] at this
  | .opt f inner, mine, x => by
    intro hp h
    rw [Kid.Reads] at h
    rw [Kid.Has]
    rcases h with ⟨-, h⟩ | ⟨m, y, rfl, hr, rfl⟩
    · exact .inl h
    · obtain ⟨p1, p2⟩ := hp m (by simp)
      have := inner_has inner m y p1 hr
      rw [p2] at this
      exact .inr ⟨y, this, rfl⟩
  | .orElse f d inner, mine, x => by
    intro hp h
    rw [Kid.Reads] at h
    rw [Kid.Has]
    rcases h with ⟨-, h⟩ | ⟨m, rfl, hr⟩
    · exact .inl h
    · obtain ⟨p1, p2⟩ := hp m (by simp)
      have := inner_has inner m x p1 hr
      rw [p2] at this
      exact .inr this
  | .many f name inner, mine, x => by
    intro hp h
    rw [Kid.Reads] at h
    rw [Kid.Has]
    obtain ⟨xs, rfl, he⟩ := h
    refine ⟨xs, rfl, fun y hy => ?_⟩
    obtain ⟨m, hm, hr⟩ := each2_right he hy
    obtain ⟨p1, p2⟩ := hp m hm
    have := inner_has inner m y p1 hr
    rwa [p2] at this
theorem restKids_have : ∀ (r : RestKids) (names : List Str) (others : List (SpannedNode Unit)) (env : List (AttrAccess × FVal Leaf)),
    (∀ m ∈ others, m.value.Printable ReadableType ∧ m.value.nodeName.value ∉ names) → r.Reads ptr others env → r.Has ptr names env
  | .none, names, others, env => by intros; rw [RestKids.Has]; trivial
  | .some f inner, names, others, env => by
    intro hp h
    rw [RestKids.Reads] at h
    rw [RestKids.Has]
    obtain ⟨xs, hx, he⟩ := h
    refine ⟨xs, hx, fun y hy => ?_⟩
    obtain ⟨m, hm, hr⟩ := each2_right he hy
    exact ⟨_, (hp m hm).2, inner_has inner m y (hp m hm).1 hr⟩
theorem inner_has : ∀ (i : Inner) (n : SpannedNode Unit) (x : FVal Leaf), n.value.Printable ReadableType →
    i.Reads ptr n x → i.Has ptr n.value.nodeName.value x
  | .type d, n, x => by
    intro hp h
    rw [Inner.Reads] at h
    rw [Inner.Has]
    exact decl_has d false n x hp (by simp) h
  | .unwrap f c, n, x => by
    intro hp h
    rw [Inner.Reads] at h
    rw [Inner.Has]
    exact content_has c n _ hp h
theorem cases_have : ∀ (ks : List Case) (full : Bool) (n : SpannedNode Unit) (v : FVal Leaf), n.value.Printable ReadableType →
    (full = true → NonEmpty n) → casesRead ptr ks n v → casesHave ptr n.value.nodeName.value full ks v
  | [], full, n, v => by intro _ _ h; rw [casesRead] at h; exact h.elim
  | k :: ks, full, n, v => by
    intro hp hf h
    rw [casesRead] at h
    rw [casesHave]
    split at h
    · next hn => rw [if_pos hn]; exact case_has k full n v hp hf h
    · next hn => rw [if_neg hn]; exact cases_have ks full n v hp hf h
theorem case_has : ∀ (k : Case) (full : Bool) (n : SpannedNode Unit) (v : FVal Leaf), n.value.Printable ReadableType →
    (full = true → NonEmpty n) → k.Reads ptr n v → k.Has ptr n.value.nodeName.value full v
  | .unit i, full, n, v => by
    intro _ _ h
    rw [Case.Reads] at h
    rw [Case.Has]
    exact h.1
  | .nested i d, full, n, v => by
    intro hp hf h
    rw [Case.Reads] at h
    rw [Case.Has]
    obtain ⟨x, rfl, h⟩ := h
    exact ⟨x, rfl, decl_has d full n x hp hf h⟩
  | .nestedOpt i d, full, n, v => by
    intro hp hf h
    rw [Case.Reads] at h
    rw [Case.Has]
    rcases h with ⟨rfl, h⟩ | ⟨x, rfl, h1, h⟩
    · refine .inl ⟨rfl, ?_⟩
      cases full with
      | false => rfl
      | true => exact absurd (hf rfl) h
    · exact .inr ⟨x, rfl, decl_has d true n x hp (fun _ => h1) h⟩
  | .tuple i c, full, n, v => by
    intro hp hf h
    rw [Case.Reads] at h
    rw [Case.Has]
    obtain ⟨env, rfl, h⟩ := h
    exact ⟨env, rfl, content_has c n env hp h⟩
end

end

/-! ### Each value can be written -/

section
variable [Externals] (ptr : Nat)

omit [Externals] in
theorem digitIs_dec {d : Nat} (h : d < 10) : ∃ c, DigitIs 10 c d ∧ c ∈ digitsOf .dec := by
  match d, h with
  | 0, _ => exact ⟨'0', by unfold DigitIs; decide, by decide⟩
  | 1, _ => exact ⟨'1', by unfold DigitIs; decide, by decide⟩
  | 2, _ => exact ⟨'2', by unfold DigitIs; decide, by decide⟩
  | 3, _ => exact ⟨'3', by unfold DigitIs; decide, by decide⟩
  | 4, _ => exact ⟨'4', by unfold DigitIs; decide, by decide⟩
  | 5, _ => exact ⟨'5', by unfold DigitIs; decide, by decide⟩
  | 6, _ => exact ⟨'6', by unfold DigitIs; decide, by decide⟩
  | 7, _ => exact ⟨'7', by unfold DigitIs; decide, by decide⟩
  | 8, _ => exact ⟨'8', by unfold DigitIs; decide, by decide⟩
  | 9, _ => exact ⟨'9', by unfold DigitIs; decide, by decide⟩

omit [Externals] in
theorem decimal_text (n : Nat) : ∃ s, Denotes 10 s n ∧ Digits1 .dec s := by
  induction n using Nat.strongRecOn with
  | _ n ih =>
    by_cases hn : n < 10
    · obtain ⟨c, h1, h2⟩ := digitIs_dec hn
      exact ⟨[c], .one h1, by simp, by simpa using h2⟩
    · obtain ⟨s, h1, h2, h3⟩ := ih (n / 10) (by omega)
      obtain ⟨c, h4, h5⟩ := digitIs_dec (d := n % 10) (by omega)
      refine ⟨s ++ [c], ?_, by simp, ?_⟩
      · have := Denotes.snoc h1 h4
        rwa [show n / 10 * 10 + n % 10 = n by omega] at this
      · intro c' hc'
        rcases List.mem_append.1 hc' with h | h
        · exact h3 c' h
        · rw [List.mem_singleton] at h; rw [h]; exact h5

omit [Externals] in
theorem fits_text (t : IntTy) (n : Int) (h1 : (rangeOf ptr t).1 ≤ n) (h2 : n ≤ (rangeOf ptr t).2) :
    ∃ s, FitsAs ptr t .dec s n ∧ Signed (Digits1 .dec) s := by
  obtain ⟨s, hs, hd⟩ := decimal_text n.natAbs
  by_cases hn : 0 ≤ n
  · refine ⟨s, ⟨false, ?_, h1, h2, fun _ => rfl⟩, .inl hd⟩
    have := IntText.plain (base := 10) hs
    rwa [Int.natAbs_of_nonneg hn] at this
  · refine ⟨'-' :: s, ⟨true, ?_, h1, h2, ?_⟩, .inr ⟨s, .inl rfl, hd⟩⟩
    · have := IntText.minus (base := 10) hs
      rwa [show -(n.natAbs : Int) = n by omega] at this
    · intro hu
      exfalso
      have : (rangeOf ptr t).1 = 0 := by
        simp only [unsignedTypes, List.mem_cons, List.not_mem_nil, or_false] at hu
        rcases hu with rfl | rfl | rfl | rfl | rfl <;> rfl
      omega

theorem scal_write {t : Scal} {x : FVal Leaf} (h : t.Has ptr x) : ∃ v : Value Unit, v.Printable ReadableType ∧ t.Reads ptr v x := by
  cases t with
  | int t =>
    obtain ⟨n, rfl, h1, h2⟩ := h
    obtain ⟨s, hs, hd⟩ := fits_text ptr t n h1 h2
    exact ⟨⟨none, (), .int .dec s⟩, ⟨by simp, hd⟩, by simp [Scal.Annotation], _, _, _, rfl, hs, rfl⟩
  | float t =>
    obtain ⟨s, rfl, h1, h2⟩ := h
    exact ⟨⟨none, (), .decimal s⟩, ⟨by simp, h2⟩, by simp [Scal.Annotation], _, rfl, h1, rfl⟩
  | bool => obtain ⟨b, rfl⟩ := h; exact ⟨⟨none, (), .bool b⟩, ⟨by simp, trivial⟩, rfl, _, rfl, rfl⟩
  | text => obtain ⟨b, rfl⟩ := h; exact ⟨⟨none, (), .string b⟩, ⟨by simp, trivial⟩, rfl, _, rfl, rfl⟩
  | choice _ vs => obtain ⟨s, w, h1, rfl⟩ := h; exact ⟨⟨none, (), .string s⟩, ⟨by simp, trivial⟩, rfl, _, _, rfl, h1, rfl⟩
  | str parse => obtain ⟨s, h1⟩ := h; exact ⟨⟨none, (), .string s⟩, ⟨by simp, trivial⟩, rfl, _, rfl, h1⟩
  | bytes =>
    obtain ⟨s, b, rfl, h | h⟩ := h
    · exact ⟨⟨none, (), .string s⟩, ⟨by simp, trivial⟩, trivial, s, b, rfl, rfl, h⟩
    · refine ⟨⟨some ⟨(), .builtin .base64⟩, (), .string s⟩, ⟨?_, trivial⟩, trivial, s, b, rfl, rfl, rfl, h⟩
      intro t ht
      simp only [Option.some.injEq] at ht
      subst ht
      exact ⟨by decide, by decide⟩

theorem scal_writeIn {t : Scal} {o : Bool} {x : FVal Leaf} (h : t.HasIn ptr o x) :
    ∃ v : Value Unit, v.Printable ReadableType ∧ t.ReadsIn ptr o v x := by
  unfold Scal.HasIn at h
  unfold Scal.ReadsIn
  cases o with
  | false => exact scal_write ptr h
  | true =>
    rcases h with rfl | ⟨y, h, rfl⟩
    · refine ⟨⟨none, (), .null⟩, ⟨by simp, trivial⟩, .inl ⟨rfl, ?_, rfl⟩⟩
      cases t <;> simp [Scal.Annotation]
    · obtain ⟨v, h1, h2⟩ := scal_write ptr h
      exact ⟨v, h1, .inr ⟨y, h2, rfl⟩⟩

omit [Externals] in
theorem list_of_each {α : Type} {m : Nat} {P : Nat → α → Prop} (h : ∀ i < m, ∃ v, P i v) :
    ∃ l : List α, l.length = m ∧ ∀ i v, l[i]? = some v → P i v := by
  induction m with
  | zero => exact ⟨[], rfl, by simp⟩
  | succ m ih =>
    obtain ⟨l, h1, h2⟩ := ih fun i hi => h i (by omega)
    obtain ⟨v, hv⟩ := h m (by omega)
    refine ⟨l ++ [v], by simp [h1], fun i w hw => ?_⟩
    rw [List.getElem?_append] at hw
    split at hw
    · exact h2 i w hw
    · next hi =>
      have : i - l.length = 0 := by
        by_contra hne
        rw [List.getElem?_eq_none (by simp; omega)] at hw
        simp at hw
      rw [this] at hw
      simp only [List.getElem?_cons_zero, Option.some.injEq] at hw
      rw [← hw, show i = m by omega]
      exact hv

omit [Externals] in
theorem each2_of_all {α β : Type} {P : α → Prop} {R : α → β → Prop} {l' : List β} (h : ∀ b ∈ l', ∃ a, P a ∧ R a b) :
    ∃ l, (∀ a ∈ l, P a) ∧ Each2 R l l' := by
  induction l' with
  | nil => exact ⟨[], by simp, .nil⟩
  | cons b l' ih =>
    obtain ⟨l, h1, h2⟩ := ih fun b hb => h b (by simp [hb])
    obtain ⟨a, h3, h4⟩ := h b (by simp)
    exact ⟨a :: l, by simpa using ⟨h3, h1⟩, .cons h4 h2⟩

/-- The arguments. -/
theorem args_write {args : List ArgD} {rest : Option RestD} {env : List (AttrAccess × FVal Leaf)} {k : Nat}
    (h1 : ∀ (i : Nat) (a : ArgD), args[i]? = some a → ∃ x, (a.field, x) ∈ env ∧
        if i < k then a.ty.HasIn ptr a.option x else absent a.default a.option = some x)
    (h2 : match rest with
        | none => True
        | some r => ∃ xs, (r.field, .list xs) ∈ env ∧ (xs ≠ [] → args.length ≤ k) ∧ ∀ x ∈ xs, r.ty.Has ptr x) :
    ∃ l : List (Value Unit), (∀ v ∈ l, v.Printable ReadableType) ∧
      (∀ (i : Nat) (a : ArgD), args[i]? = some a → ∃ x, (a.field, x) ∈ env ∧ a.Reads ptr l[i]? x) ∧
      match rest with
      | none => l.length ≤ args.length
      | some r => ∃ xs, (r.field, .list xs) ∈ env ∧ Each2 (r.ty.Reads ptr) (l.drop args.length) xs := by
  obtain ⟨l, hl, hall⟩ := list_of_each (m := min k args.length)
    (P := fun i v => v.Printable ReadableType ∧ ∀ a, args[i]? = some a → ∃ x, (a.field, x) ∈ env ∧ a.ty.ReadsIn ptr a.option v x) (by
      intro i hi
      have hi' : i < args.length := by omega
      obtain ⟨x, hx, hr⟩ := h1 i args[i] (List.getElem?_eq_getElem hi')
      rw [if_pos (by omega)] at hr
      obtain ⟨v, hv, hr⟩ := scal_writeIn ptr hr
      refine ⟨v, hv, fun a ha => ?_⟩
      rw [List.getElem?_eq_getElem hi', Option.some.injEq] at ha
      subst ha
      exact ⟨x, hx, hr⟩)
  have hpl : ∀ v ∈ l, v.Printable ReadableType := by
    intro v hv
    obtain ⟨i, hi⟩ := List.getElem?_of_mem hv
    exact (hall i v hi).1
  have key : ∀ l' : List (Value Unit), (l' ≠ [] → args.length ≤ k) → ∀ (i : Nat) (a : ArgD), args[i]? = some a →
      ∃ x, (a.field, x) ∈ env ∧ a.Reads ptr (l ++ l')[i]? x := by
    intro l' hl' i a ha
    have hia : i < args.length := (List.getElem?_eq_some_iff.1 ha).1
    by_cases hi : i < l.length
    · rw [List.getElem?_append_left hi]
      obtain ⟨x, hx, hr⟩ := (hall i l[i] (List.getElem?_eq_getElem hi)).2 a ha
      refine ⟨x, hx, ?_⟩
      rw [List.getElem?_eq_getElem hi]
      exact hr
    · have hnil : l' = [] := by
        by_contra hne
        have := hl' hne
        omega
      obtain ⟨x, hx, hr⟩ := h1 i a ha
      rw [if_neg (by omega)] at hr
      refine ⟨x, hx, ?_⟩
      rw [hnil, List.append_nil, List.getElem?_eq_none (by omega)]
      exact hr
  cases rest with
  | none =>
    have hk := key [] (by simp)
    rw [List.append_nil] at hk
    exact ⟨l, hpl, hk, by dsimp only; omega⟩
  | some r =>
    obtain ⟨xs, hx, hk, hxs⟩ := h2
    obtain ⟨l', hp', he⟩ := each2_of_all (P := fun v : Value Unit => v.Printable ReadableType) (R := r.ty.Reads ptr) (l' := xs)
      fun x hx => scal_write ptr (hxs x hx)
    have hne : l' ≠ [] → args.length ≤ k := by
      intro hne
      apply hk
      rintro rfl
      cases he
      exact hne rfl
    refine ⟨l ++ l', ?_, key l' hne, xs, hx, ?_⟩
    · intro v hv
      rcases List.mem_append.1 hv with hv | hv
      · exact hpl v hv
      · exact hp' v hv
    · by_cases hl' : l' = []
      · rw [hl'] at he ⊢
        rw [List.append_nil, List.drop_eq_nil_of_le (by omega)]
        exact he
      · have := hne hl'
        rw [show args.length = l.length by omega, List.drop_left]
        exact he

omit [Externals] in
theorem filter_all {α : Type} {p : α → Bool} {l : List α} (h : ∀ a ∈ l, p a = true) : l.filter p = l := List.filter_eq_self.2 h

omit [Externals] in
theorem filter_none {α : Type} {p : α → Bool} {l : List α} (h : ∀ a ∈ l, ¬ p a = true) : l.filter p = [] := List.filter_eq_nil_iff.2 h

/-- The properties with their own fields. -/
theorem props_write {env : List (AttrAccess × FVal Leaf)} : ∀ (props : List PropD), (props.map (·.name)).Nodup →
    (∀ p ∈ props, ∃ x, (p.field, x) ∈ env ∧ (p.ty.HasIn ptr p.option x ∨ absent p.default p.option = some x)) →
    ∃ l : List (Spanned Str Unit × Value Unit), (∀ q ∈ l, q.2.Printable ReadableType ∧ q.1.value ∈ props.map (·.name)) ∧
      (l.map (·.1.value)).Nodup ∧
      ∀ p ∈ props, ∃ x, (p.field, x) ∈ env ∧ p.Reads ptr (l.filter fun q => q.1.value = p.name) x
  | [], _, _ => ⟨[], by simp, by simp, by simp⟩
  | p :: ps, hn, h => by
    rw [List.map_cons, List.nodup_cons] at hn
    obtain ⟨l, h1, h2, h3⟩ := props_write ps hn.2 fun p hp => h p (by simp [hp])
    have hnil : (l.filter fun q => q.1.value = p.name) = [] := by
      rw [List.filter_eq_nil_iff]
      intro q hq he
      rw [decide_eq_true_eq] at he
      exact hn.1 (he ▸ (h1 q hq).2)
    obtain ⟨x, hx, hr | hr⟩ := h p (by simp)
    · obtain ⟨v, hv, hr⟩ := scal_writeIn ptr hr
      refine ⟨(⟨(), p.name⟩, v) :: l, ?_, ?_, ?_⟩
      · intro q hq
        rcases List.mem_cons.1 hq with rfl | hq
        · exact ⟨hv, by simp⟩
        · exact ⟨(h1 q hq).1, by rw [List.map_cons]; exact List.mem_cons_of_mem _ (h1 q hq).2⟩
      · rw [List.map_cons, List.nodup_cons]
        refine ⟨?_, h2⟩
        rw [List.mem_map]
        rintro ⟨q, hq, he⟩
        have he : q.1.value = p.name := he
        exact hn.1 (he ▸ (h1 q hq).2)
      · intro p' hp'
        rcases List.mem_cons.1 hp' with rfl | hp'
        · refine ⟨x, hx, [x], ?_, rfl⟩
          rw [List.filter_cons_of_pos (by simp), hnil]
          exact .cons hr .nil
        · obtain ⟨x', hx', hr'⟩ := h3 p' hp'
          refine ⟨x', hx', ?_⟩
          rw [List.filter_cons_of_neg]
          · exact hr'
          · simp only [decide_eq_true_eq]
            intro he
            exact hn.1 (he ▸ List.mem_map.2 ⟨p', hp', rfl⟩)
    · refine ⟨l, ?_, h2, ?_⟩
      · intro q hq
        exact ⟨(h1 q hq).1, by rw [List.map_cons]; exact List.mem_cons_of_mem _ (h1 q hq).2⟩
      · intro p' hp'
        rcases List.mem_cons.1 hp' with rfl | hp'
        · refine ⟨x, hx, [], ?_, hr⟩
          rw [hnil]
          exact .nil
        · exact h3 p' hp'

omit [Externals] in
theorem pairs_write {R : Value Unit → FVal Leaf → Prop} {P : Value Unit → Prop} {Q : Str → Prop} (kvs : List (Str × FVal Leaf))
    (h : ∀ kv ∈ kvs, Q kv.1 ∧ ∃ v, P v ∧ R v kv.2) :
    ∃ l : List (Spanned Str Unit × Value Unit), (∀ q ∈ l, P q.2 ∧ Q q.1.value) ∧ l.map (·.1.value) = kvs.map (·.1) ∧
      Each2 (fun q (x : FVal Leaf × FVal Leaf) => x.1 = .leaf (.text q.1.value) ∧ R q.2 x.2) l (kvs.map fun kv => (.leaf (.text kv.1), kv.2)) := by
  induction kvs with
  | nil => exact ⟨[], by simp, rfl, .nil⟩
  | cons kv kvs ih =>
    obtain ⟨l, h1, h2, h3⟩ := ih fun kv hkv => h kv (by simp [hkv])
    obtain ⟨hQ, v, hv, hr⟩ := h kv (by simp)
    refine ⟨(⟨(), kv.1⟩, v) :: l, ?_, by simp [h2], .cons ⟨rfl, hr⟩ h3⟩
    intro q hq
    rcases List.mem_cons.1 hq with rfl | hq
    · exact ⟨hv, hQ⟩
    · exact h1 q hq

omit [Externals] in
/-- Sorting by the key. -/
theorem sort_props (l : List (Spanned Str Unit × Value Unit)) (h : (l.map (·.1.value)).Nodup) :
    ∃ l' : List (Spanned Str Unit × Value Unit), l'.Perm l ∧ (l'.map (·.1.value)).Pairwise (· < ·) := by
  let le : Spanned Str Unit × Value Unit → Spanned Str Unit × Value Unit → Bool := fun a b => decide (a.1.value ≤ b.1.value)
  have hp := List.mergeSort_perm l le
  refine ⟨l.mergeSort le, hp, ?_⟩
  have hs : (l.mergeSort le).Pairwise (fun a b => le a b = true) := by
    apply List.pairwise_mergeSort
    · intro a b c h1 h2
      simp only [le, decide_eq_true_eq] at h1 h2 ⊢
      exact List.le_trans h1 h2
    · intro a b
      simp only [le, Bool.or_eq_true, decide_eq_true_eq]
      exact List.le_total _ _
  have hn : ((l.mergeSort le).map (·.1.value)).Nodup := (hp.map _).nodup_iff.2 h
  rw [List.Nodup, List.pairwise_map] at hn
  rw [List.pairwise_map]
  refine (hs.and hn).imp ?_
  rintro a b ⟨h1, h2⟩
  simp only [le, decide_eq_true_eq] at h1
  rcases List.le_iff_lt_or_eq.1 h1 with h | h
  · exact h
  · exact absurd h h2

omit [Externals] in
theorem filter_key_perm {l l' : List (Spanned Str Unit × Value Unit)} (hp : l'.Perm l) (hn : (l.map (·.1.value)).Nodup) (s : Str) :
    (l'.filter fun q => q.1.value = s) = l.filter fun q => q.1.value = s := by
  have h1 := hp.filter fun q => decide (q.1.value = s)
  have h2 : (l.filter fun q => q.1.value = s).length ≤ 1 := by
    have hnf : ((l.filter fun q => q.1.value = s).map (·.1.value)).Nodup := hn.sublist (List.filter_sublist.map _)
    match hm : l.filter fun q => q.1.value = s with
    | [] => rw [hm]; simp
    | [_] => rw [hm]; simp
    | a :: b :: r =>
      exfalso
      rw [hm] at hnf
      have ha : a ∈ l.filter fun q => q.1.value = s := by rw [hm]; simp
      have hb : b ∈ l.filter fun q => q.1.value = s := by rw [hm]; simp
      rw [List.mem_filter, decide_eq_true_eq] at ha hb
      simp [ha.2, hb.2] at hnf
  match hm : l.filter fun q => q.1.value = s with
  | [] => rw [hm] at h1 ⊢; exact h1.eq_nil
  | [a] => rw [hm] at h1 ⊢; exact List.perm_singleton.1 h1
  | _ :: _ :: _ => rw [hm] at h2; simp at h2

omit [Externals] in
theorem filter_sorted_perm {l r : List (Spanned Str Unit × Value Unit)} (hp : l.Perm r) (hl : (l.map (·.1.value)).Pairwise (· < ·))
    (hr : (r.map (·.1.value)).Pairwise (· < ·)) : l = r := by
  rw [List.pairwise_map] at hl hr
  refine List.Perm.eq_of_pairwise ?_ hl hr hp
  intro a b _ _ h1 h2
  exact absurd h2 (List.lt_asymm h1)

/-- All properties. -/
theorem allProps_write {env : List (AttrAccess × FVal Leaf)} (props : List PropD) (restProps : Option RestD)
    (h : ∀ p ∈ props, ∃ x, (p.field, x) ∈ env ∧ (p.ty.HasIn ptr p.option x ∨ absent p.default p.option = some x))
    (h' : match restProps with
      | none => True
      | some r => ∃ kvs : List (Str × FVal Leaf), (r.field, .pairs (kvs.map fun kv => (.leaf (.text kv.1), kv.2))) ∈ env ∧
          (kvs.map (·.1)).Pairwise (· < ·) ∧ ∀ kv ∈ kvs, kv.1 ∉ props.map (·.name) ∧ r.ty.Has ptr kv.2)
    (hn : (props.map (·.name)).Nodup) :
    ∃ l : List (Spanned Str Unit × Value Unit), (∀ q ∈ l, q.2.Printable ReadableType) ∧ (l.map (·.1.value)).Pairwise (· < ·) ∧
      (∀ p ∈ props, ∃ x, (p.field, x) ∈ env ∧ p.Reads ptr (l.filter fun q => q.1.value = p.name) x) ∧
      match restProps with
      | none => ∀ q ∈ l, q.1.value ∈ props.map (·.name)
      | some r => ∃ xs, (r.field, .pairs xs) ∈ env ∧
          Each2 (fun q x => x.1 = .leaf (.text q.1.value) ∧ r.ty.Reads ptr q.2 x.2)
            (l.filter fun q => q.1.value ∉ props.map (·.name)) xs := by
  obtain ⟨l, h1, h2, h3⟩ := props_write ptr props hn h
  cases restProps with
  | none =>
    obtain ⟨l', hp, hs⟩ := sort_props l h2
    refine ⟨l', fun q hq => (h1 q (hp.mem_iff.1 hq)).1, hs, fun p hpp => ?_, fun q hq => (h1 q (hp.mem_iff.1 hq)).2⟩
    rw [filter_key_perm hp h2]
    exact h3 p hpp
  | some r =>
    obtain ⟨kvs, hx, hs, hall⟩ := h'
    obtain ⟨l2, h4, h5, h6⟩ := pairs_write (P := fun v => v.Printable ReadableType) (R := r.ty.Reads ptr)
      (Q := fun s => s ∉ props.map (·.name)) kvs fun kv hkv => ⟨(hall kv hkv).1, scal_write ptr (hall kv hkv).2⟩
    have hs2 : (l2.map (·.1.value)).Pairwise (· < ·) := h5 ▸ hs
    have hnod : ((l ++ l2).map (·.1.value)).Nodup := by
      rw [List.map_append, List.nodup_append]
      refine ⟨h2, hs2.imp fun h he => ?_, ?_⟩
      · subst he; exact List.lt_irrefl _ h
      · intro a ha b hb he
        subst he
        obtain ⟨q, hq, rfl⟩ := List.mem_map.1 ha
        obtain ⟨q', hq', he⟩ := List.mem_map.1 hb
        exact (h4 q' hq').2 (he ▸ (h1 q hq).2)
    obtain ⟨l', hp, hsort⟩ := sort_props (l ++ l2) hnod
    refine ⟨l', ?_, hsort, ?_, _, hx, ?_⟩
    · intro q hq
      rcases List.mem_append.1 (hp.mem_iff.1 hq) with hq | hq
      · exact (h1 q hq).1
      · exact (h4 q hq).1
    · intro p hpp
      rw [filter_key_perm hp hnod, List.filter_append, filter_none (l := l2), List.append_nil]
      · exact h3 p hpp
      · intro q hq he
        rw [decide_eq_true_eq] at he
        exact (h4 q hq).2 (he ▸ List.mem_map.2 ⟨p, hpp, rfl⟩)
    · have hf : (l'.filter fun q => q.1.value ∉ props.map (·.name)) = l2 := by
        have hpf := hp.filter fun q => decide (q.1.value ∉ props.map (·.name))
        rw [List.filter_append, filter_none (l := l), List.nil_append, filter_all (l := l2)] at hpf
        · exact filter_sorted_perm hpf (hsort.sublist (List.filter_sublist.map _)) hs2
        · intro q hq
          simpa using (h4 q hq).2
        · intro q hq
          simpa using (h1 q hq).2
      rw [hf]
      exact h6

theorem kidsRead_congr {env : List (AttrAccess × FVal Leaf)} {l l' : List (SpannedNode Unit)} : ∀ ks : List Kid,
    (∀ s ∈ ks.map Kid.name, (l.filter fun m => m.value.nodeName.value = s) = l'.filter fun m => m.value.nodeName.value = s) →
    kidsRead ptr ks l env → kidsRead ptr ks l' env
  | [], _, _ => by rw [kidsRead]; trivial
  | k :: ks, hf, h => by
    rw [kidsRead] at h ⊢
    rw [← hf k.name (by simp)]
    exact ⟨h.1, kidsRead_congr ks (fun s hs => hf s (by rw [List.map_cons]; exact List.mem_cons_of_mem _ hs)) h.2⟩

/-- A node with a block. -/
def node (ty : Option TypeName) (name : Str) (args : List (Value Unit)) (props : List (Spanned Str Unit × Value Unit)) (kids : List (SpannedNode Unit)) :
    SpannedNode Unit := ⟨(), .mk (ty.map fun t => ⟨(), t⟩) ⟨(), name⟩ args props (some ⟨(), kids⟩)⟩

omit [Externals] in
theorem node_nonEmpty (ty name args props kids) : NonEmpty (node ty name args props kids) := .inr (.inr (by simp [node, Node.children]))

omit [Externals] in
theorem node_printable' {T : TypeName → Prop} {ty name args props kids} (h1 : ∀ t, ty = some t → T t) (h2 : ∀ v ∈ args, Value.Printable T v)
    (h3 : ∀ q ∈ props, Value.Printable T (Prod.snd q)) (h4 : (props.map (·.1.value)).Pairwise (· < ·))
    (h5 : ∀ m ∈ kids, Node.Printable T (Spanned.value m)) : (node ty name args props kids).value.Printable T := by
  rw [printable_iff]
  refine ⟨?_, h2, h3, h4, h5⟩
  intro t ht
  simp only [node, Node.typeName, Option.map_eq_some_iff] at ht
  obtain ⟨t', ht', rfl⟩ := ht
  exact h1 _ ht'

mutual
theorem decl_write : ∀ (d : Decl) (name : Str) (full : Bool) (v : FVal Leaf), d.Proper → d.Has ptr name full v →
    ∃ n : SpannedNode Unit, n.value.Printable ReadableType ∧ n.value.nodeName.value = name ∧ (full = true → NonEmpty n) ∧ d.Reads ptr n v
  | .struct own c, name, full, v => by
    intro hp h
    rw [Decl.Proper] at hp
    rw [Decl.Has] at h
    obtain ⟨a, t, env, rfl, h1, ⟨ty, h2, h3⟩, h4⟩ := h
    obtain ⟨args, props, kids, hpr, hr⟩ := content_write c ty name env hp h4 h2
    refine ⟨_, hpr, rfl, fun _ => node_nonEmpty .., ?_⟩
    rw [Decl.Reads]
    refine ⟨a, t, env, rfl, h1, ?_, hr⟩
    cases ty <;> exact h3
  | .enum cases, name, full, v => by
    intro hp h
    rw [Decl.Proper] at hp
    rw [Decl.Has] at h
    obtain ⟨n, h1, h2, h3, h4⟩ := cases_write cases name full v hp h
    refine ⟨n, h1, h2, h3, ?_⟩
    rw [Decl.Reads]
    exact h4
theorem content_write : ∀ (c : Content) (ty : Option TypeName) (name : Str) (env : List (AttrAccess × FVal Leaf)), c.Proper → c.Has ptr env →
    (∀ t, ty = some t → ReadableType t) →
    ∃ args props kids, (node ty name args props kids).value.Printable ReadableType ∧ c.Reads ptr (node ty name args props kids) env
  | .mk args rest props restProps kids restKids, ty, name, env => by
    intro hp h hty
    rw [Content.Proper] at hp
    rw [Content.Has.eq_def] at h
    obtain ⟨q1, q2, q3, q4, q5⟩ := hp
    obtain ⟨h1, ⟨k, h2, h3⟩, h4, h5, h6, h7⟩ := h
    obtain ⟨as, a1, a2, a3⟩ := args_write ptr h2 h3
    obtain ⟨ps, p1, p2, p3, p4⟩ := allProps_write ptr props restProps h4 h5 q2
    obtain ⟨ks, k1, k2⟩ := kids_write kids env q4 q3 h6
    obtain ⟨os, o1, o2⟩ := restKids_write restKids (kids.map Kid.name) env q5 h7
    refine ⟨as, ps, ks ++ os, node_printable' hty a1 p1 p2 ?_, ?_⟩
    · intro m hm
      rcases List.mem_append.1 hm with hm | hm
      · exact (k1 m hm).1
      · exact (o1 m hm).1
    · rw [Content.Reads.eq_def]
      refine ⟨h1, a2, by cases rest <;> exact a3, p3, by cases restProps <;> exact p4, ?_, ?_⟩
      · refine kidsRead_congr ptr kids ?_ k2
        intro s hs
        show _ = (ks ++ os).filter _
        rw [List.filter_append, filter_none (l := os), List.append_nil]
        intro m hm he
        rw [decide_eq_true_eq] at he
        exact (o1 m hm).2 (he ▸ hs)
      · show restKids.Reads ptr ((ks ++ os).filter _) env
        rw [List.filter_append, filter_none (l := ks), List.nil_append, filter_all (l := os)]
        · exact o2
        · intro m hm
          simpa using (o1 m hm).2
        · intro m hm
          simpa using (k1 m hm).2
theorem kids_write : ∀ (ks : List Kid) (env : List (AttrAccess × FVal Leaf)), kidsProper ks → (ks.map Kid.name).Nodup → kidsHave ptr ks env →
    ∃ nodes : List (SpannedNode Unit), (∀ m ∈ nodes, m.value.Printable ReadableType ∧ m.value.nodeName.value ∈ ks.map Kid.name) ∧
      kidsRead ptr ks nodes env
  | [], env => by
    intros
    refine ⟨[], by simp, ?_⟩
    rw [kidsRead]; trivial
  | k :: ks, env => by
    intro hp hn h
    rw [kidsProper] at hp
    rw [kidsHave] at h
    rw [List.map_cons, List.nodup_cons] at hn
    obtain ⟨⟨x, hx, hk⟩, h⟩ := h
    obtain ⟨mine, m1, m2⟩ := kid_write k x hp.1 hk
    obtain ⟨nodes, n1, n2⟩ := kids_write ks env hp.2 hn.2 h
    refine ⟨mine ++ nodes, ?_, ?_⟩
    · intro m hm
      rcases List.mem_append.1 hm with hm | hm
      · exact ⟨(m1 m hm).1, by rw [(m1 m hm).2]; simp⟩
      · exact ⟨(n1 m hm).1, by rw [List.map_cons]; exact List.mem_cons_of_mem _ (n1 m hm).2⟩
    · rw [kidsRead]
      refine ⟨⟨x, hx, ?_⟩, ?_⟩
      · rw [List.filter_append, filter_all (l := mine), filter_none (l := nodes), List.append_nil]
        · exact m2
        · intro m hm he
          rw [decide_eq_true_eq] at he
          exact hn.1 (he ▸ (n1 m hm).2)
        · intro m hm
          simpa using (m1 m hm).2
      · refine kidsRead_congr ptr ks ?_ n2
        intro s hs
        rw [List.filter_append, filter_none (l := mine), List.nil_append]
        intro m hm he
        rw [decide_eq_true_eq, (m1 m hm).2] at he
        exact hn.1 (he ▸ hs)
theorem kid_write : ∀ (k : Kid) (x : FVal Leaf), k.Proper → k.Has ptr x →
    ∃ mine : List (SpannedNode Unit), (∀ m ∈ mine, m.value.Printable ReadableType ∧ m.value.nodeName.value = k.name) ∧ k.Reads ptr mine x
  | .flag f, x => by
    intro _ h
    rw [Kid.Has] at h
    obtain ⟨b, rfl⟩ := h
    cases b with
    | false =>
      refine ⟨[], by simp, ?_⟩
      rw [Kid.Reads]
      simp
    | true =>
      refine ⟨[node none (Kid.name (.flag f)) [] [] []], ?_, ?_⟩
      · intro m hm
        rw [List.mem_singleton] at hm
        subst hm
        exact ⟨node_printable' (by simp) (by simp) (by simp) (by simp) (by simp), rfl⟩
      · rw [Kid.Reads]
        refine ⟨rfl, by simp, ?_⟩
        intro m hm
        rw [List.mem_singleton] at hm
        subst hm
        exact ⟨rfl, rfl, rfl⟩
  | .one f inner, x => by
    intro hp h
    rw [Kid.Proper] at hp
    rw [Kid.Has] at h
    obtain ⟨n, h1, h2, h3⟩ := inner_write inner _ x hp h
    refine ⟨[n], by simpa using ⟨h1, h2⟩, ?_⟩
    rw [Kid.Reads]
    exact ⟨n, rfl, h3⟩
  | .opt f inner, x => by
    intro hp h
    rw [Kid.Proper] at hp
    rw [Kid.Has] at h
    rcases h with rfl | ⟨y, h, rfl⟩
    · refine ⟨[], by simp, ?_⟩
      rw [Kid.Reads]
      exact .inl ⟨rfl, rfl⟩
    · obtain ⟨n, h1, h2, h3⟩ := inner_write inner _ y hp h
      refine ⟨[n], by simpa using ⟨h1, h2⟩, ?_⟩
      rw [Kid.Reads]
      exact .inr ⟨n, y, rfl, h3, rfl⟩
  | .orElse f d inner, x => by
    intro hp h
    rw [Kid.Proper] at hp
    rw [Kid.Has] at h
    rcases h with rfl | h
    · refine ⟨[], by simp, ?_⟩
      rw [Kid.Reads]
      exact .inl ⟨rfl, rfl⟩
    · obtain ⟨n, h1, h2, h3⟩ := inner_write inner _ x hp h
      refine ⟨[n], by simpa using ⟨h1, h2⟩, ?_⟩
      rw [Kid.Reads]
      exact .inr ⟨n, rfl, h3⟩
  | .many f name inner, x => by
    intro hp h
    rw [Kid.Proper] at hp
    rw [Kid.Has] at h
    obtain ⟨xs, rfl, hall⟩ := h
    obtain ⟨l, h1, h2⟩ := each2_of_all (P := fun m : SpannedNode Unit => m.value.Printable ReadableType ∧ m.value.nodeName.value = name)
      (R := fun m y => inner.Reads ptr m y) (l' := xs) (by
        intro y hy
        obtain ⟨n, h1, h2, h3⟩ := inner_write inner name y hp (hall y hy)
        exact ⟨n, ⟨h1, h2⟩, h3⟩)
    refine ⟨l, h1, ?_⟩
    rw [Kid.Reads]
    exact ⟨xs, rfl, h2⟩
theorem restKids_write : ∀ (r : RestKids) (names : List Str) (env : List (AttrAccess × FVal Leaf)), r.Proper → r.Has ptr names env →
    ∃ others : List (SpannedNode Unit), (∀ m ∈ others, m.value.Printable ReadableType ∧ m.value.nodeName.value ∉ names) ∧ r.Reads ptr others env
  | .none, names, env => by
    intros
    refine ⟨[], by simp, ?_⟩
    rw [RestKids.Reads]
  | .some f inner, names, env => by
    intro hp h
    rw [RestKids.Proper] at hp
    rw [RestKids.Has] at h
    obtain ⟨xs, hx, hall⟩ := h
    obtain ⟨l, h1, h2⟩ := each2_of_all (P := fun m : SpannedNode Unit => m.value.Printable ReadableType ∧ m.value.nodeName.value ∉ names)
      (R := fun m y => inner.Reads ptr m y) (l' := xs) (by
        intro y hy
        obtain ⟨name, hn, hy⟩ := hall y hy
        obtain ⟨n, h1, h2, h3⟩ := inner_write inner name y hp hy
        exact ⟨n, ⟨h1, h2 ▸ hn⟩, h3⟩)
    refine ⟨l, h1, ?_⟩
    rw [RestKids.Reads]
    exact ⟨xs, hx, h2⟩
theorem inner_write : ∀ (i : Inner) (name : Str) (x : FVal Leaf), i.Proper → i.Has ptr name x →
    ∃ n : SpannedNode Unit, n.value.Printable ReadableType ∧ n.value.nodeName.value = name ∧ i.Reads ptr n x
  | .type d, name, x => by
    intro hp h
    rw [Inner.Proper] at hp
    rw [Inner.Has] at h
    obtain ⟨n, h1, h2, -, h3⟩ := decl_write d name false x hp h
    refine ⟨n, h1, h2, ?_⟩
    rw [Inner.Reads]
    exact h3
  | .unwrap f c, name, x => by
    intro hp h
    rw [Inner.Proper] at hp
    rw [Inner.Has] at h
    obtain ⟨args, props, kids, h1, h2⟩ := content_write c none name _ hp.2 h (by simp)
    refine ⟨_, h1, rfl, ?_⟩
    rw [Inner.Reads]
    exact h2
theorem cases_write : ∀ (ks : List Case) (name : Str) (full : Bool) (v : FVal Leaf), casesProper ks → casesHave ptr name full ks v →
    ∃ n : SpannedNode Unit, n.value.Printable ReadableType ∧ n.value.nodeName.value = name ∧ (full = true → NonEmpty n) ∧ casesRead ptr ks n v
  | [], name, full, v => by intro _ h; rw [casesHave] at h; exact h.elim
  | k :: ks, name, full, v => by
    intro hp h
    rw [casesProper] at hp
    rw [casesHave] at h
    by_cases hn : name = k.name
    · rw [if_pos hn] at h
      obtain ⟨n, h1, h2, h3, h4⟩ := case_write k name full v hp.1 h
      refine ⟨n, h1, h2, h3, ?_⟩
      rw [casesRead, if_pos (h2.trans hn)]
      exact h4
    · rw [if_neg hn] at h
      obtain ⟨n, h1, h2, h3, h4⟩ := cases_write ks name full v hp.2 h
      refine ⟨n, h1, h2, h3, ?_⟩
      rw [casesRead, if_neg (by rw [h2]; exact hn)]
      exact h4
theorem case_write : ∀ (k : Case) (name : Str) (full : Bool) (v : FVal Leaf), k.Proper → k.Has ptr name full v →
    ∃ n : SpannedNode Unit, n.value.Printable ReadableType ∧ n.value.nodeName.value = name ∧ (full = true → NonEmpty n) ∧ k.Reads ptr n v
  | .unit i, name, full, v => by
    intro _ h
    rw [Case.Has] at h
    refine ⟨node none name [] [] [], node_printable' (by simp) (by simp) (by simp) (by simp) (by simp), rfl, fun _ => node_nonEmpty .., ?_⟩
    rw [Case.Reads]
    exact ⟨h, rfl, rfl, rfl⟩
  | .nested i d, name, full, v => by
    intro hp h
    rw [Case.Proper] at hp
    rw [Case.Has] at h
    obtain ⟨x, rfl, h⟩ := h
    obtain ⟨n, h1, h2, h3, h4⟩ := decl_write d name full x hp h
    refine ⟨n, h1, h2, h3, ?_⟩
    rw [Case.Reads]
    exact ⟨x, rfl, h4⟩
  | .nestedOpt i d, name, full, v => by
    intro hp h
    rw [Case.Proper] at hp
    rw [Case.Has] at h
    rcases h with ⟨rfl, rfl⟩ | ⟨x, rfl, h⟩
    · refine ⟨⟨(), .mk none ⟨(), name⟩ [] [] none⟩, ?_, rfl, by simp, ?_⟩
      · rw [Node.Printable, PrintableChildren]
        simp
      · rw [Case.Reads]
        exact .inl ⟨rfl, by simp [NonEmpty, Node.arguments, Node.properties, Node.children]⟩
    · obtain ⟨n, h1, h2, h3, h4⟩ := decl_write d name true x hp h
      refine ⟨n, h1, h2, fun _ => h3 rfl, ?_⟩
      rw [Case.Reads]
      exact .inr ⟨x, rfl, h3 rfl, h4⟩
  | .tuple i c, name, full, v => by
    intro hp h
    rw [Case.Proper] at hp
    rw [Case.Has] at h
    obtain ⟨env, rfl, h⟩ := h
    obtain ⟨args, props, kids, h1, h2⟩ := content_write c none name _ hp h (by simp)
    refine ⟨_, h1, rfl, fun _ => node_nonEmpty .., ?_⟩
    rw [Case.Reads]
    exact ⟨env, rfl, h2⟩
end

end

end Schema
end Knuffel
