import Verif.Theory.DeriveChildren
/-!
# Whole derived structs
-/

set_option linter.unusedSectionVars false

namespace Knuffel
variable {E S V α β ι σ : Type} [Externals]

theorem field_of_mem {env : Env V} (hd : (env.map (·.1)).Nodup) {f : AttrAccess} {x : FVal V} (h : (f, x) ∈ env) :
    FVal.field f (.record env) = x := by
  unfold FVal.field
  dsimp only
  induction env with
  | nil => simp at h
  | cons a env ih =>
    rcases List.mem_cons.1 h with rfl | h
    · simp
    · have hd' := List.nodup_cons.1 (by simpa using hd : (a.1 :: env.map (·.1)).Nodup)
      have hne : a.1 ≠ f := by
        intro e
        exact hd'.1 (List.mem_map.2 ⟨(f, x), h, e.symm⟩)
      rw [List.find?_cons_of_neg (by simpa using hne)]
      exact ih hd'.2 h

theorem setField_same (f : AttrAccess) (v : FVal V) : v.setField f (v.field f) = v := by
  cases v with
  | record fields =>
    simp only [FVal.setField, FVal.field, FVal.record.injEq]
    induction fields with
    | nil => rfl
    | cons a l ih =>
      obtain ⟨g, y⟩ := a
      rw [Env.set]
      by_cases hg : g = f
      · rw [if_pos hg, List.find?_cons_of_pos (by simpa using hg)]; rfl
      · rw [if_neg hg, List.find?_cons_of_neg (by simpa using hg), ih]
  | _ => rfl

theorem decodeSpans_ok {node : SpannedNode S} {l : List (SpanField E S V)} (hk : ∀ f ∈ l, f.impls.Keeps)
    {c c' : Ctx E S} {env : Env V} (h : decodeSpans node l c = .ok env c') :
    env.map (·.1) = l.map (·.field) ∧
    ∀ f ∈ l, ∃ x, (f.field, x) ∈ env ∧ During c c' (f.impls.span.run node.span) x := by
  induction l generalizing c env with
  | nil =>
    rw [decodeSpans, D.pure_ok_iff] at h
    obtain ⟨rfl, rfl⟩ := h
    simp
  | cons f l ih =>
    rw [decodeSpans, D.bind_ok_iff] at h
    obtain ⟨x, c1, h1, h⟩ := h
    rw [D.bind_ok_iff] at h
    obtain ⟨env', c2, h2, h⟩ := h
    rw [D.pure_ok_iff] at h
    obtain ⟨rfl, rfl⟩ := h
    have hk' : ∀ g ∈ l, g.impls.Keeps := fun g hg => hk g (by simp [hg])
    obtain ⟨e1, e2⟩ := ih hk' h2
    refine ⟨by simp [e1], fun g hg => ?_⟩
    rcases List.mem_cons.1 hg with rfl | hg
    · exact ⟨x, by simp, .here h1 ((Keeps.decodeSpans _ _ hk').ok h2)⟩
    · obtain ⟨y, hy, hh⟩ := e2 g hg
      exact ⟨y, by simp [hy], hh.mono (((hk f (by simp)).span _).ok h1) List.prefix_rfl⟩

theorem decodeNodeNames_ok {node : SpannedNode S} {l : List (NodeNameField E S V)}
    {c c' : Ctx E S} {env : Env V} (h : decodeNodeNames node l c = .ok env c') :
    c = c' ∧ env.map (·.1) = l.map (·.field) ∧
    ∀ f ∈ l, ∃ x, (f.field, x) ∈ env ∧ f.impls.fromStr node.value.nodeName.value = .ok x := by
  induction l generalizing c env with
  | nil =>
    rw [decodeNodeNames, D.pure_ok_iff] at h
    obtain ⟨rfl, rfl⟩ := h
    simp
  | cons f l ih =>
    rw [decodeNodeNames, D.bind_ok_iff] at h
    obtain ⟨x, c1, h1, h⟩ := h
    rw [D.bind_ok_iff] at h
    obtain ⟨env', c2, h2, h⟩ := h
    rw [D.pure_ok_iff] at h
    obtain ⟨rfl, rfl⟩ := h
    obtain ⟨h1', rfl⟩ := liftConv_ok h1
    obtain ⟨rfl, e1, e2⟩ := ih h2
    refine ⟨rfl, by simp [e1], fun g hg => ?_⟩
    rcases List.mem_cons.1 hg with rfl | hg
    · exact ⟨x, by simp, h1'⟩
    · obtain ⟨y, hy, hh⟩ := e2 g hg
      exact ⟨y, by simp [hy], hh⟩

theorem decodeTypeName_ok {node : SpannedNode S} {f : TypeNameField E S V} {c c' : Ctx E S} {x : FVal V}
    (h : decodeTypeName node f c = .ok x c') : c = c' ∧ TypeNameGets node f x := by
  unfold decodeTypeName at h
  unfold TypeNameGets
  cases ht : node.value.typeName with
  | some tn =>
    rw [ht] at h
    dsimp only at h ⊢
    rw [D.bind_ok_iff] at h
    obtain ⟨y, c1, h1, h⟩ := h
    rw [D.pure_ok_iff] at h
    obtain ⟨rfl, rfl⟩ := h
    obtain ⟨h1', rfl⟩ := liftConv_ok h1
    exact ⟨rfl, y, h1', rfl⟩
  | none =>
    rw [ht] at h
    dsimp only at h ⊢
    by_cases ho : f.option
    · rw [if_pos ho, D.pure_ok_iff] at h
      exact ⟨h.2, ho, h.1.symm⟩
    · rw [if_neg ho, D.fail_ok_iff] at h; exact h.elim

theorem decodeTypeNames_ok {node : SpannedNode S} {l : List (TypeNameField E S V)}
    {c c' : Ctx E S} {env : Env V} (h : decodeTypeNames node l c = .ok env c') :
    c = c' ∧ env.map (·.1) = l.map (·.field) ∧ ∀ f ∈ l, ∃ x, (f.field, x) ∈ env ∧ TypeNameGets node f x := by
  induction l generalizing c env with
  | nil =>
    rw [decodeTypeNames, D.pure_ok_iff] at h
    obtain ⟨rfl, rfl⟩ := h
    simp
  | cons f l ih =>
    rw [decodeTypeNames, D.bind_ok_iff] at h
    obtain ⟨x, c1, h1, h⟩ := h
    rw [D.bind_ok_iff] at h
    obtain ⟨env', c2, h2, h⟩ := h
    rw [D.pure_ok_iff] at h
    obtain ⟨rfl, rfl⟩ := h
    obtain ⟨rfl, h1'⟩ := decodeTypeName_ok h1
    obtain ⟨rfl, e1, e2⟩ := ih h2
    refine ⟨rfl, by simp [e1], fun g hg => ?_⟩
    rcases List.mem_cons.1 hg with rfl | hg
    · exact ⟨x, by simp, h1'⟩
    · obtain ⟨y, hy, hh⟩ := e2 g hg
      exact ⟨y, by simp [hy], hh⟩

theorem decodeSpecials_ok {s : Struct E S V} (hk : s.Keeps) {node : SpannedNode S} {c c' : Ctx E S} {env : Env V}
    (h : decodeSpecials s node c = .ok env c') :
    env.map (·.1) = s.spans.map (·.field) ++ s.nodeNames.map (·.field) ++ s.typeNames.map (·.field) ∧
    (∀ f ∈ s.spans, ∃ x, (f.field, x) ∈ env ∧ During c c' (f.impls.span.run node.span) x) ∧
    (∀ f ∈ s.nodeNames, ∃ x, (f.field, x) ∈ env ∧ f.impls.fromStr node.value.nodeName.value = .ok x) ∧
    (∀ f ∈ s.typeNames, ∃ x, (f.field, x) ∈ env ∧ TypeNameGets node f x) ∧
    (s.typeNames = [] → ∀ tn, node.value.typeName = some tn → During c c' (D.emit (strayTypeName tn)) ()) := by
  unfold decodeSpecials at h
  rw [D.bind_ok_iff] at h
  obtain ⟨ea, c1, h1, h⟩ := h
  rw [D.bind_ok_iff] at h
  obtain ⟨eb, c2, h2, h⟩ := h
  rw [D.bind_ok_iff] at h
  obtain ⟨ec, c3, h3, h⟩ := h
  obtain ⟨a1, a2⟩ := decodeSpans_ok hk.spans h1
  obtain ⟨rfl, b1, b2⟩ := decodeNodeNames_ok h2
  obtain ⟨rfl, d1, d2⟩ := decodeTypeNames_ok h3
  have k1 := (Keeps.decodeSpans _ _ hk.spans).ok h1
  have key : env = ea ++ eb ++ ec ∧ c1.errors <+: c'.errors ∧
      (s.typeNames = [] → ∀ tn, node.value.typeName = some tn → During c c' (D.emit (strayTypeName tn)) ()) := by
    by_cases he : s.typeNames.isEmpty
    · rw [if_pos he] at h
      cases ht : node.value.typeName with
      | none =>
        rw [ht] at h
        have h : (pure (ea ++ eb ++ ec) : D E S (Env V)) c1 = .ok env c' := h
        rw [D.pure_ok_iff] at h
        obtain ⟨rfl, rfl⟩ := h
        exact ⟨rfl, List.prefix_rfl, by simp⟩
      | some tn =>
        rw [ht] at h
        have h : (pure (ea ++ eb ++ ec) : D E S (Env V)) (c1.emitError (strayTypeName tn)) = .ok env c' := h
        rw [D.pure_ok_iff] at h
        obtain ⟨rfl, rfl⟩ := h
        refine ⟨rfl, List.prefix_append _ _, ?_⟩
        intro _ tn' htn'
        simp only [Option.some.injEq] at htn'
        subst htn'
        exact ⟨c1, _, k1, D.emit_eq _ _, List.prefix_rfl⟩
    · rw [if_neg he] at h
      have h : (pure (ea ++ eb ++ ec) : D E S (Env V)) c1 = .ok env c' := h
      rw [D.pure_ok_iff] at h
      obtain ⟨rfl, rfl⟩ := h
      exact ⟨rfl, List.prefix_rfl, fun hn => by simp [hn] at he⟩
  obtain ⟨rfl, k2, k3⟩ := key
  refine ⟨by simp [a1, b1, d1], ?_, ?_, ?_, k3⟩
  · intro f hf
    obtain ⟨x, hx, hh⟩ := a2 f hf
    exact ⟨x, by simp [hx], hh.mono List.prefix_rfl k2⟩
  · intro f hf
    obtain ⟨x, hx, hh⟩ := b2 f hf
    exact ⟨x, by simp [hx], hh⟩
  · intro f hf
    obtain ⟨x, hx, hh⟩ := d2 f hf
    exact ⟨x, by simp [hx], hh⟩

/-- The parts of a successful run of a derived struct. -/
theorem Struct.node_parts {s : Struct E S V} {node : SpannedNode S} {c c' : Ctx E S} {v : FVal V}
    (h : s.node node c = .ok v c') :
    ∃ sp a p ch c1 c2 c3, decodeSpecials s node c = .ok sp c1 ∧ decodeArgs s node c1 = .ok a c2 ∧
      decodeProps s node c2 = .ok p c3 ∧ decodeChildren s (some node.span) node.value.childNodes c3 = .ok ch c' ∧
      v = .record (sp ++ (a ++ p ++ ch) ++ assignExtra s) := by
  unfold Struct.node at h
  rw [D.bind_ok_iff] at h
  obtain ⟨sp, c1, h1, h⟩ := h
  rw [D.bind_ok_iff] at h
  obtain ⟨body, c2, h2, h⟩ := h
  rw [D.pure_ok_iff] at h
  obtain ⟨rfl, rfl⟩ := h
  unfold decodeContent at h2
  rw [D.bind_ok_iff] at h2
  obtain ⟨a, c3, ha, h2⟩ := h2
  rw [D.bind_ok_iff] at h2
  obtain ⟨p, c4, hp, h2⟩ := h2
  rw [D.bind_ok_iff] at h2
  obtain ⟨ch, c5, hc, h2⟩ := h2
  rw [D.pure_ok_iff] at h2
  obtain ⟨rfl, rfl⟩ := h2
  exact ⟨sp, a, p, ch, c1, c3, c4, h1, ha, hp, hc, rfl⟩

theorem decodeContent_parts {s : Struct E S V} {node : SpannedNode S} {c c' : Ctx E S} {env : Env V}
    (h : decodeContent s node c = .ok env c') :
    ∃ a p ch c2 c3, decodeArgs s node c = .ok a c2 ∧
      decodeProps s node c2 = .ok p c3 ∧ decodeChildren s (some node.span) node.value.childNodes c3 = .ok ch c' ∧
      env = a ++ p ++ ch := by
  unfold decodeContent at h
  rw [D.bind_ok_iff] at h
  obtain ⟨a, c3, ha, h2⟩ := h
  rw [D.bind_ok_iff] at h2
  obtain ⟨p, c4, hp, h2⟩ := h2
  rw [D.bind_ok_iff] at h2
  obtain ⟨ch, c5, hc, h2⟩ := h2
  rw [D.pure_ok_iff] at h2
  obtain ⟨rfl, rfl⟩ := h2
  exact ⟨a, p, ch, c3, c4, ha, hp, hc, rfl⟩

theorem propArms_length {name : Spanned Str S} {val : Value S} {l : List (Prop' E S V × PropState V)} {c c' : Ctx E S} {r}
    (h : propArms name val l c = .ok r c') : r.2.length = l.length := by
  induction l generalizing c r with
  | nil =>
    rw [propArms, D.pure_ok_iff] at h
    obtain ⟨rfl, rfl⟩ := h
    rfl
  | cons a l ih =>
    obtain ⟨p, st⟩ := a
    rw [propArms] at h
    have tl : ∀ {c : Ctx E S} {x : PropState V}, (propArms name val l >>= fun t => pure (t.1, x :: t.2)) c = .ok r c' →
        r.2.length = l.length + 1 := by
      intro c x h
      rw [D.bind_ok_iff] at h
      obtain ⟨t, c1, h1, h⟩ := h
      rw [D.pure_ok_iff] at h
      obtain ⟨rfl, rfl⟩ := h
      simp [ih h1]
    split at h
    · rw [D.bind_ok_iff] at h
      obtain ⟨t, c1, h1, h⟩ := h
      split at h
      · rw [D.pure_ok_iff] at h
        obtain ⟨rfl, rfl⟩ := h
        simp
      · exact tl h
    · split at h
      · rw [D.bind_ok_iff] at h
        obtain ⟨t, c1, h1, h⟩ := h
        split at h <;>
        · rw [D.pure_ok_iff] at h
          obtain ⟨rfl, rfl⟩ := h
          simp
      · exact tl h

theorem propLoop_length {s : Struct E S V} {props : List (Spanned Str S × Value S)} {sts : List (PropState V)} {var}
    (hl : sts.length = s.properties.length) {c c' : Ctx E S} {r} (h : propLoop s props sts var c = .ok r c') :
    r.1.length = s.properties.length := by
  induction props generalizing sts var c with
  | nil =>
    rw [propLoop, D.pure_ok_iff] at h
    obtain ⟨rfl, rfl⟩ := h
    exact hl
  | cons q props ih =>
    obtain ⟨name, val⟩ := q
    rw [propLoop, D.bind_ok_iff] at h
    obtain ⟨t, c1, h1, h⟩ := h
    have hl' : t.2.length = s.properties.length := by
      rw [propArms_length h1, List.length_zip, hl, Nat.min_self]
    split at h
    · exact ih hl' h
    · cases hv : s.varProps <;> rw [hv] at h <;> dsimp only at h
      · rw [D.fail_ok_iff] at h; exact h.elim
      · rw [D.bind_ok_iff] at h
        obtain ⟨_, _, _, h⟩ := h
        rw [D.bind_ok_iff] at h
        obtain ⟨_, _, _, h⟩ := h
        exact ih hl' h

theorem decodeProps_keys {s : Struct E S V} {node : SpannedNode S} {c c' : Ctx E S} {env : Env V}
    (h : decodeProps s node c = .ok env c') :
    env.map (·.1) = s.properties.map (·.field) ++ s.varProps.toList.map (·.field) := by
  unfold decodeProps at h
  rw [D.bind_ok_iff] at h
  obtain ⟨r, c1, h1, h⟩ := h
  rw [D.bind_ok_iff] at h
  obtain ⟨env', c2, h2, h⟩ := h
  have g1 := propLoop_length (by simp) h1
  obtain ⟨rfl, e2, -⟩ := finishProps_ok h2
  have hkeys : env'.map (·.1) = s.properties.map (·.field) := by
    have hz : (s.properties.zip r.1).map (·.1) = s.properties := by
      rw [← List.unzip_fst, List.unzip_zip g1.symm]
    have hz' := congrArg (List.map (·.field)) hz
    rw [List.map_map] at hz'
    exact e2.trans hz'
  cases hv : s.varProps <;> rw [hv] at h <;> dsimp only at h <;> rw [D.pure_ok_iff] at h <;>
    obtain ⟨rfl, rfl⟩ := h <;> simp [hkeys]

theorem childArms_length {n : SpannedNode S} {l : List (Child E S V × FVal V)} {c c' : Ctx E S} {r}
    (h : childArms n l c = .ok r c') : r.2.length = l.length := by
  induction l generalizing c r with
  | nil =>
    rw [childArms, D.pure_ok_iff] at h
    obtain ⟨rfl, rfl⟩ := h
    rfl
  | cons a l ih =>
    obtain ⟨p, st⟩ := a
    rw [childArms] at h
    have tl : ∀ {c : Ctx E S} {x : FVal V}, (childArms n l >>= fun t => pure (t.1, x :: t.2)) c = .ok r c' →
        r.2.length = l.length + 1 := by
      intro c x h
      rw [D.bind_ok_iff] at h
      obtain ⟨t, c1, h1, h⟩ := h
      rw [D.pure_ok_iff] at h
      obtain ⟨rfl, rfl⟩ := h
      simp [ih h1]
    split at h
    · rw [D.bind_ok_iff] at h
      obtain ⟨t, c1, h1, h⟩ := h
      split at h
      · rw [D.pure_ok_iff] at h
        obtain ⟨rfl, rfl⟩ := h
        simp
      · exact tl h
    · split at h
      · rw [D.bind_ok_iff] at h
        obtain ⟨t, c1, h1, h⟩ := h
        rw [D.pure_ok_iff] at h
        obtain ⟨rfl, rfl⟩ := h
        simp
      · exact tl h

theorem childLoop_length {s : Struct E S V} {nodes : List (SpannedNode S)} {flds : List (FVal V)} {var}
    (hl : flds.length = s.children.length) {c c' : Ctx E S} {r} (h : childLoop s nodes flds var c = .ok r c') :
    r.1.length = s.children.length := by
  induction nodes generalizing flds var c with
  | nil =>
    rw [childLoop, D.pure_ok_iff] at h
    obtain ⟨rfl, rfl⟩ := h
    exact hl
  | cons n nodes ih =>
    rw [childLoop, D.bind_ok_iff] at h
    obtain ⟨t, c1, h1, h⟩ := h
    have hl' : t.2.length = s.children.length := by
      rw [childArms_length h1, List.length_zip, hl, Nat.min_self]
    split at h
    · exact ih hl' h
    · cases hv : s.varChildren <;> rw [hv] at h <;> dsimp only at h
      · rw [D.bind_ok_iff] at h
        obtain ⟨_, _, _, h⟩ := h
        exact ih hl' h
      · rw [D.bind_ok_iff] at h
        obtain ⟨_, _, _, h⟩ := h
        exact ih hl' h

theorem decodeChildren_keys {s : Struct E S V} {sp : Option S} {nodes : List (SpannedNode S)} {c c' : Ctx E S} {env : Env V}
    (h : decodeChildren s sp nodes c = .ok env c') :
    env.map (·.1) = s.children.map (·.field) ++ s.varChildren.toList.map (·.field) := by
  unfold decodeChildren at h
  rw [D.bind_ok_iff] at h
  obtain ⟨r, c1, h1, h⟩ := h
  rw [D.bind_ok_iff] at h
  obtain ⟨env', c2, h2, h⟩ := h
  have g1 := childLoop_length (by simp) h1
  obtain ⟨rfl, e2, -⟩ := finishChildren_ok h2
  have hkeys : env'.map (·.1) = s.children.map (·.field) := by
    have hz : (s.children.zip r.1).map (·.1) = s.children := by
      rw [← List.unzip_fst, List.unzip_zip g1.symm]
    have hz' := congrArg (List.map (·.field)) hz
    rw [List.map_map] at hz'
    exact e2.trans hz'
  cases hv : s.varChildren <;> rw [hv] at h <;> dsimp only at h <;> rw [D.pure_ok_iff] at h <;>
    obtain ⟨rfl, rfl⟩ := h <;> simp [hkeys]

/-- The values are returned under the names of the fields. -/
theorem Struct.node_keys {s : Struct E S V} (hk : s.Keeps) {node : SpannedNode S} {c c' : Ctx E S} {v : FVal V}
    (h : s.node node c = .ok v c') : ∃ env, v = .record env ∧ env.map (·.1) = s.allFields := by
  obtain ⟨sp, a, p, ch, c1, c2, c3, h1, h2, h3, h4, rfl⟩ := Struct.node_parts h
  refine ⟨_, rfl, ?_⟩
  have e1 := (decodeSpecials_ok hk h1).1
  have e2 := (decodeArgs_ok hk h2).1
  have e3 := decodeProps_keys h3
  have e4 := decodeChildren_keys h4
  simp [Struct.allFields, assignExtra, e1, e2, e3, e4, Function.comp_def]

theorem Struct.root_parts {s : Struct E S V} {nodes : List (SpannedNode S)} {c c' : Ctx E S} {v : FVal V}
    (h : s.root nodes c = .ok v c') :
    ∃ ch, decodeChildren s none nodes c = .ok ch c' ∧ v = .record (ch ++ assignExtra s) := by
  unfold Struct.root at h
  rw [D.bind_ok_iff] at h
  obtain ⟨ch, c1, h1, h⟩ := h
  rw [D.pure_ok_iff] at h
  obtain ⟨rfl, rfl⟩ := h
  exact ⟨ch, h1, rfl⟩

/-- The fields of the struct that the root decoder assigns. -/
theorem Struct.root_keys {s : Struct E S V} {nodes : List (SpannedNode S)} {c c' : Ctx E S} {v : FVal V}
    (h : s.root nodes c = .ok v c') : ∃ env, v = .record env ∧ env.map (·.1) =
      s.children.map (·.field) ++ s.varChildren.toList.map (·.field) ++ s.extraFields.map (·.field) := by
  obtain ⟨ch, h1, rfl⟩ := Struct.root_parts h
  refine ⟨_, rfl, ?_⟩
  simp [assignExtra, decodeChildren_keys h1, Function.comp_def]

omit [Externals] in
theorem ChildGets.mono {c0 c c' c1 : Ctx E S} {ch : Child E S V} {mine : List (SpannedNode S)} {x : FVal V}
    (h1 : c0.errors <+: c.errors) (h : ChildGets c c' ch mine x) (h2 : c'.errors <+: c1.errors) :
    ChildGets c0 c1 ch mine x := by
  unfold ChildGets at h ⊢
  cases hm : ch.mode <;> rw [hm] at h <;> dsimp only at h ⊢
  · split at h
    · exact h
    · obtain ⟨y, hy, hx⟩ := h
      exact ⟨y, During.mono h1 hy h2, hx⟩
    · exact h.elim
  · exact Steps.imp h fun _ _ _ hh => During.mono h1 hh h2
  · obtain ⟨xs, hx, hy⟩ := h
    exact ⟨xs, hx.imp fun _ _ hh => During.mono h1 hh h2, hy⟩
  · exact ⟨h.1, fun n hn => During.mono h1 (h.2.1 n hn) h2, fun n hn => During.mono h1 (h.2.2 n hn) h2⟩

section Lift
variable {s : Struct E S V} {node : SpannedNode S} {c c' : Ctx E S} {v : FVal V}

theorem Struct.node_field (hk : s.Keeps) (hd : s.allFields.Nodup) (h : s.node node c = .ok v c') {f : AttrAccess} {x : FVal V}
    {env : Env V} (hv : v = .record env) (hm : (f, x) ∈ env) : v.field f = x := by
  obtain ⟨env', rfl, hkeys⟩ := Struct.node_keys hk h
  simp only [FVal.record.injEq] at hv
  subst hv
  exact field_of_mem (hkeys ▸ hd) hm

theorem Struct.root_field {nodes : List (SpannedNode S)} (hd : s.allFields.Nodup) (h : s.root nodes c = .ok v c')
    {f : AttrAccess} {x : FVal V} {env : Env V} (hv : v = .record env) (hm : (f, x) ∈ env) : v.field f = x := by
  obtain ⟨env', rfl, hkeys⟩ := Struct.root_keys h
  simp only [FVal.record.injEq] at hv
  subst hv
  refine field_of_mem (hkeys ▸ ?_) hm
  refine List.Nodup.sublist ?_ hd
  unfold Struct.allFields
  refine List.Sublist.append (List.Sublist.append ?_ (List.Sublist.refl _)) (List.Sublist.refl _)
  exact List.sublist_append_right _ _

omit [Externals] in
theorem forEach_clean {α : Type} {f : α → DErr S} {l : List α} {c c' : Ctx E S} {u}
    (h : D.forEach (fun a => D.emit (f a)) l c = .ok u c') : c'.errors = c.errors ++ l.map f := by
  induction l generalizing c with
  | nil =>
    rw [D.forEach, D.pure_ok_iff] at h
    obtain ⟨-, rfl⟩ := h
    simp
  | cons a l ih =>
    rw [D.forEach, D.bind_ok_iff] at h
    obtain ⟨x, c1, h1, h⟩ := h
    rw [D.emit_ok_iff] at h1
    rw [ih h, ← h1]
    simp

omit [Externals] in
/-- What the check for flag nodes reports. -/
theorem checkFlagNode_errors {n : SpannedNode S} {c c' : Ctx E S} {u} (h : checkFlagNode n c = .ok u c') :
    c'.errors = c.errors ++ n.value.arguments.map unexpectedArgument ++
      n.value.properties.map (fun p => unexpectedProperty p.1) ++ n.value.childNodes.map unexpectedNode := by
  unfold checkFlagNode at h
  rw [D.bind_ok_iff] at h
  obtain ⟨_, c1, h1, h⟩ := h
  rw [D.bind_ok_iff] at h
  obtain ⟨_, c2, h2, h⟩ := h
  rw [← forEach_clean h1, ← forEach_clean h2]
  unfold Node.childNodes
  cases hc : n.value.children with
  | none =>
    rw [hc] at h
    dsimp only at h
    rw [D.pure_ok_iff] at h
    rw [h.2]
    simp
  | some ch =>
    rw [hc] at h
    exact forEach_clean h

omit [Externals] in
theorem flag_field {ch : Child E S V} (hm : ch.mode = .bool) {nodes : List (SpannedNode S)} {x : FVal V}
    (hg : ChildGets c c' ch (nodes.filter fun n => n.value.nodeName.value = ch.name) x) :
    x = .bool (nodes.any fun n => n.value.nodeName.value = ch.name) ∧
    (c'.errors = c.errors →
      (nodes.filter fun n => n.value.nodeName.value = ch.name).length ≤ 1 ∧
      ∀ n ∈ nodes, n.value.nodeName.value = ch.name →
        n.value.arguments = [] ∧ n.value.properties = [] ∧ n.value.childNodes = []) := by
  unfold ChildGets at hg
  rw [hm] at hg
  dsimp only at hg
  obtain ⟨g1, g2, g3⟩ := hg
  refine ⟨?_, ?_⟩
  · rw [g1]
    congr 1
    rw [Bool.eq_iff_iff]
    simp [List.filter_eq_nil_iff]
  · intro hc
    constructor
    · match hl : nodes.filter fun n => n.value.nodeName.value = ch.name with
      | [] => rw [hl]; simp
      | [_] => rw [hl]; simp
      | a :: b :: l =>
        rw [hl] at g3
        obtain ⟨c1, c2, e1, h1, e2⟩ := (g3 b (by simp)).clean hc (Keeps.emit _)
        rw [D.emit_ok_iff] at h1
        rw [← h1] at e2
        simp [e1] at e2
    · intro n hn hname
      obtain ⟨c1, c2, e1, h1, e2⟩ := (g2 n (List.mem_filter.2 ⟨hn, by simpa using hname⟩)).clean hc (Keeps.checkFlagNode _)
      have := checkFlagNode_errors h1
      rw [e1, e2] at this
      simpa using this

end Lift

end Knuffel
