import Verif.Props.Attrs
import Verif.Props.DeriveEnum
/-!
# The derived decoder of an enum, from its declaration

C56, with C42.
-/

namespace Knuffel
variable {X T E S V : Type}

theorem skip_false {syn : Syn X T} (laws : SynLaws syn) {attrs : List Attribute} {as : List (Attr X T)} {b : Bool}
    (h1 : parseAttrList syn attrs = .ok as) (h2 : variantSkip as false = .ok b) : b = false ↔ AttrsOf syn attrs [] := by
  have h1 := (c55_language laws _ _).1 h1
  have h2 := (skip_iff.1 h2).2
  cases as with
  | nil => exact ⟨fun _ => h1, fun _ => by simpa using h2⟩
  | cons a as =>
    refine ⟨fun h => ?_, fun h => ?_⟩
    · subst h; simp at h2
    · have := c55_unambiguous laws h1 h; cases this

/-- The descriptions of the variants go with the variants. -/
inductive DefsOf [Externals] (syn : Syn X T) : List (VariantSyn E S V) → List (VariantDef E S V) → Prop
  | nil : DefsOf syn [] []
  | cons {v vs d ds} : d.ident = v.ident → (d.skip = false ↔ AttrsOf syn v.attrs []) →
      (AttrsOf syn v.attrs [] → v.fields = .unit → d.fields = .unit) → DefsOf syn vs ds → DefsOf syn (v :: vs) (d :: ds)

theorem defsOf [Externals] {syn : Syn X T} (laws : SynLaws syn) {eval : X → FVal V} {vs : List (VariantSyn E S V)}
    {ds : List (VariantDef E S V)} (h : variantDefs syn eval vs = .ok ds) : DefsOf syn vs ds := by
  induction vs generalizing ds with
  | nil => cases h; exact .nil
  | cons v vs ih =>
    unfold variantDefs at h
    obtain ⟨as, h2, h⟩ := except_bind_ok.1 h
    obtain ⟨skip, h3, h⟩ := except_bind_ok.1 h
    obtain ⟨fields, h4, h⟩ := except_bind_ok.1 h
    obtain ⟨ds', h5, h⟩ := except_bind_ok.1 h
    cases h
    have hs := skip_false laws h2 h3
    refine .cons rfl hs (fun ha hu => ?_) (ih h5)
    rw [hs.2 ha] at h4
    unfold VariantSyn.kept at h4
    rw [hu] at h4
    cases h4
    rfl

theorem defsOf_split [Externals] {syn : Syn X T} {pre : List (VariantSyn E S V)} {v : VariantSyn E S V} {post : List (VariantSyn E S V)}
    {ds : List (VariantDef E S V)} (h : DefsOf syn (pre ++ v :: post) ds) :
    ∃ pre' d post', ds = pre' ++ d :: post' ∧ DefsOf syn pre pre' ∧ d.ident = v.ident ∧ (d.skip = false ↔ AttrsOf syn v.attrs []) ∧
      (AttrsOf syn v.attrs [] → v.fields = .unit → d.fields = .unit) := by
  induction pre generalizing ds with
  | nil =>
    cases h with
    | @cons _ _ d ds h1 h2 h3 h4 => exact ⟨[], d, ds, rfl, .nil, h1, h2, h3⟩
  | cons u pre ih =>
    cases h with
    | @cons _ _ e ds h1 h2 h3 h4 =>
      obtain ⟨pre', d, post', rfl, h5, h6⟩ := ih h4
      exact ⟨e :: pre', d, post', rfl, .cons h1 h2 h3 h5, h6⟩

theorem defsOf_not [Externals] {syn : Syn X T} {vs : List (VariantSyn E S V)} {ds : List (VariantDef E S V)} {name : Str}
    (h : DefsOf syn vs ds) (hno : ∀ u ∈ vs, AttrsOf syn u.attrs [] → Externals.kebab u.ident ≠ name) : ∀ e ∈ ds, ¬ e.IsFor name := by
  induction h with
  | nil => simp
  | @cons v vs d ds h1 h2 h3 h4 ih =>
    intro e he
    rcases List.mem_cons.1 he with rfl | he
    · rintro ⟨hs, hk⟩
      rw [h1] at hk
      exact hno v List.mem_cons_self (h2.1 hs) hk
    · exact ih (fun u hu => hno u (List.mem_cons_of_mem _ hu)) e he

theorem defsOf_kept [Externals] {syn : Syn X T} {vs : List (VariantSyn E S V)} {ds : List (VariantDef E S V)} (h : DefsOf syn vs ds) :
    ∃ ks, Kept syn vs ks ∧ (ds.filter (fun d => !d.skip)).map (fun d => escapeDefault (Externals.kebab d.ident)) =
      ks.map fun v => escapeDefault (Externals.kebab v.ident) := by
  induction h with
  | nil => exact ⟨[], .nil, rfl⟩
  | @cons v vs d ds h1 h2 h3 h4 ih =>
    obtain ⟨ks, hk, he⟩ := ih
    cases hs : d.skip with
    | false => exact ⟨v :: ks, .keep (h2.1 hs) hk, by simp [hs, he, h1]⟩
    | true => exact ⟨ks, .skip (fun h => by rw [h2.2 h] at hs; cases hs) hk, by simp [hs, he]⟩

theorem enum_parts [Externals] {syn : Syn X T} {eval : X → FVal V} {attrs : List Attribute} {vs : List (VariantSyn E S V)}
    {d : Definition E S V T} {dec : NodeDecoder E S (FVal V)} (h : Definition.parse syn eval (.enum attrs vs) = .ok d) (hn : d.node = .ok dec) :
    ∃ ds ws, variantDefs syn eval vs = .ok ds ∧ enumVariants ds = .ok ws ∧ dec = enumNode ws := by
  unfold Definition.parse at h
  obtain ⟨as, h1, h⟩ := except_bind_ok.1 h
  obtain ⟨ty, h2, h⟩ := except_bind_ok.1 h
  obtain ⟨ds, h3, h⟩ := except_bind_ok.1 h
  obtain ⟨ws, h4, h⟩ := except_bind_ok.1 h
  cases h
  unfold Definition.node at hn
  dsimp only at hn
  split at hn
  · cases hn; exact ⟨ds, ws, h3, h4, rfl⟩
  · cases hn

/-- The decoder derived for an enum: a node with the name of a variant, in kebab case, is decoded to
that variant.  Of variants with the same name the first counts, and those with `skip` do not. -/
theorem c56_enum_picks [Externals] {syn : Syn X T} (laws : SynLaws syn) (eval : X → FVal V) (attrs : List Attribute)
    {pre post : List (VariantSyn E S V)} {v : VariantSyn E S V} {d : Definition E S V T} {dec : NodeDecoder E S (FVal V)}
    (h : Definition.parse syn eval (.enum attrs (pre ++ v :: post)) = .ok d) (hn : d.node = .ok dec) {node : SpannedNode S}
    (hv : AttrsOf syn v.attrs []) (hname : Externals.kebab v.ident = node.value.nodeName.value)
    (hpre : ∀ u ∈ pre, AttrsOf syn u.attrs [] → Externals.kebab u.ident ≠ node.value.nodeName.value) :
    (∀ c x c', dec node c = .ok x c' → ∃ y, x = .variant v.ident y) ∧
    (v.fields = .unit → ∀ c, ∃ c', dec node c = .ok (.variant v.ident (.record [])) c' ∧
      c'.errors = c.errors ++ node.value.arguments.map unexpectedArgument ++
        node.value.properties.map (fun p => unexpectedProperty p.1) ++ node.value.childNodes.map unexpectedNode) := by
  obtain ⟨ds, ws, h1, h2, rfl⟩ := enum_parts h hn
  obtain ⟨pre', e, post', rfl, h3, h4, h5, h6⟩ := defsOf_split (defsOf laws h1)
  have hp := defsOf_not h3 hpre
  have he : e.IsFor node.value.nodeName.value := ⟨h5.2 hv, by rw [h4]; exact hname⟩
  refine ⟨fun c x c' hx => ?_, fun hu c => ?_⟩
  · obtain ⟨k, _, ha⟩ := enumArms_first (names := ws.map (·.name)) he hp _ h2
    unfold enumNode at hx
    rw [ha] at hx
    obtain ⟨y, hy⟩ := Variant.arm_ident hx
    exact ⟨y, by rw [hy, ← h4]⟩
  · have := c42_unit h2 he hp (h6 hv hu) c
    rwa [h4] at this

/-- A node that has the name of no variant is refused at its name, and the message is made of the names of
the variants that are not skipped, in the order of the declaration. -/
theorem c56_enum_unknown [Externals] {syn : Syn X T} (laws : SynLaws syn) (eval : X → FVal V) (attrs : List Attribute)
    {vs : List (VariantSyn E S V)} {d : Definition E S V T} {dec : NodeDecoder E S (FVal V)}
    (h : Definition.parse syn eval (.enum attrs vs) = .ok d) (hn : d.node = .ok dec) {node : SpannedNode S}
    (hno : ∀ u ∈ vs, AttrsOf syn u.attrs [] → Externals.kebab u.ident ≠ node.value.nodeName.value) (c : Ctx E S) :
    ∃ m ks, dec node c = .err (.conversion node.value.nodeName.span (.text m)) c ∧ Kept syn vs ks ∧
      match ks.map fun v => escapeDefault (Externals.kebab v.ident) with
      | [] => m = "expected one of ".toList
      | [x] => m = "expected one of `".toList ++ x ++ "`".toList
      | [x, y] => m = "expected one of `".toList ++ x ++ "`, `".toList ++ y ++ "`".toList
      | [x, y, z] => m = "expected one of `".toList ++ x ++ "`, `".toList ++ y ++ "`, `".toList ++ z ++ "`".toList
      | x :: y :: others =>
        m = "expected `".toList ++ x ++ "`, `".toList ++ y ++ "`, or one of ".toList ++
          Nat.toDigits 10 others.length ++ " others".toList := by
  obtain ⟨ds, ws, h1, h2, rfl⟩ := enum_parts h hn
  have hd := defsOf laws h1
  obtain ⟨m, h3, h4⟩ := c42_unknown h2 (defsOf_not hd hno) c
  obtain ⟨ks, h5, h6⟩ := defsOf_kept hd
  rw [h6] at h4
  exact ⟨m, ks, h3, h5, h4⟩

section
variable [Externals]
open AttrDemo

/-- `enum A { #[knuffel(skip)] B { f: u8 }, C, D(u8), C }` -/
def twiceC : List (VariantSyn Unit Nat Int) :=
  [⟨['B'], [attr [w "skip"]], .named [field []]⟩, ⟨['C'], [], .unit⟩, ⟨['D'], [], .unnamed [item u8 []]⟩, ⟨['C'], [], .unnamed [item u8 []]⟩]
/-- A node with this name and an argument. -/
def named (name : Str) : SpannedNode Nat := ⟨0, .mk none ⟨1, name⟩ [⟨none, ⟨2, .null⟩⟩] [] none⟩

/-- A node named like `B` or `C` (supposing that kebab case does not make them equal) is decoded to
the first `C`, or refused. -/
example (hb : Externals.kebab ['B'] ≠ Externals.kebab ['C']) (hd : Externals.kebab ['B'] ≠ Externals.kebab ['D']) :
    ∃ d dec, Definition.parse syn ev (.enum [] twiceC) = .ok d ∧ d.node = .ok dec ∧
      (∀ c, ∃ c', dec (named (Externals.kebab ['C'])) c = .ok (.variant ['C'] (.record [])) c') ∧
      ∀ c, ∃ m, dec (named (Externals.kebab ['B'])) c = .err (.conversion 1 (.text m)) c := by
  have hB : ¬ AttrsOf syn [attr [w "skip"]] [] := fun h => by
    have := c55_unambiguous laws h ((c55_language laws _ [.skip]).1 rfl)
    cases this
  have h : ∃ d dec, Definition.parse syn ev (.enum [] twiceC) = .ok d ∧ d.node = .ok dec := ⟨_, _, rfl, rfl⟩
  obtain ⟨d, dec, h, hn⟩ := h
  refine ⟨d, dec, h, hn, fun c => ?_, fun c => ?_⟩
  · have := (c56_enum_picks laws ev [] (pre := [twiceC[0]]) (v := twiceC[1]) (post := twiceC.drop 2) h hn
      (node := named (Externals.kebab ['C'])) .nil rfl (by
        intro u hu hk
        cases List.mem_singleton.1 hu
        exact absurd hk hB)).2 rfl c
    obtain ⟨c', hc, _⟩ := this
    exact ⟨c', hc⟩
  · obtain ⟨m, _, hm, _⟩ := c56_enum_unknown laws ev [] h hn (node := named (Externals.kebab ['B'])) (by
      intro u hu hk
      simp only [twiceC, List.mem_cons, List.not_mem_nil, or_false] at hu
      rcases hu with rfl | rfl | rfl | rfl
      · exact absurd hk hB
      · exact Ne.symm hb
      · exact Ne.symm hd
      · exact Ne.symm hb) c
    exact ⟨m, hm⟩

end

end Knuffel
