import Verif.Theory.LeftLeaf
/-!
# Braces left open

What the parser does at the end of the text, and inside braces that are not closed.
-/

namespace Knuffel

open Cst

set_option linter.unusedSectionVars false

section
variable {O α β : Type} [Offset O] {eoi : Sp O}

/-- At the end of the text the parser fails and says that the text has ended. -/
def Void (p : P O α) (eoi : Sp O) : Prop :=
  (p eoi []).errs = [] ∧ ∃ e, (p eoi []).out = .error e ∧ e.rem = 0 ∧ e.err.isEoi = true

/-- At the end of the text the parser succeeds. -/
def VoidOk (p : P O α) (eoi : Sp O) : Prop :=
  (p eoi []).errs = [] ∧ (∃ a alt, (p eoi []).out = .ok (a, alt) ∧ EndEoi alt) ∧ (p eoi []).rest = []

theorem Void.endEoi {e : Loc O} (h : e.err.isEoi = true) : EndEoi (some e) := endEoi_some.2 fun _ => h

theorem void_just (c) : Void (just c : P O Char) eoi := ⟨rfl, _, rfl, rfl, rfl⟩
theorem void_filter (f) : Void (filter f : P O Char) eoi := ⟨rfl, _, rfl, rfl, rfl⟩
theorem void_filterMap (f : Sp O → Char → Except (PErr O) α) : Void (filterMap f) eoi := ⟨rfl, _, rfl, rfl, rfl⟩
theorem void_justStr (c cs) : Void (justStr (c :: cs) : P O Unit) eoi := ⟨rfl, _, rfl, rfl, rfl⟩

theorem void_pmap {f : α → β} {p : P O α} (h : Void p eoi) : Void (pmap f p) eoi := by
  obtain ⟨h1, e, h2, h3⟩ := h
  exact ⟨h1, e, by simp [pmap, h2], h3⟩

theorem void_spanned {p : P O α} (h : Void p eoi) : Void (spanned p) eoi := by
  obtain ⟨h1, e, h2, h3⟩ := h
  exact ⟨h1, e, by simp [spanned, mapWithSpan, h2], h3⟩

theorem void_tryMap {f : α → Sp O → Except (PErr O) β} {p : P O α} (h : Void p eoi) : Void (tryMap f p) eoi := by
  obtain ⟨h1, e, h2, h3⟩ := h
  exact ⟨h1, e, by simp [tryMap, h2], h3⟩

theorem void_mapErr {f : PErr O → PErr O} {p : P O α} (hf : ∀ e, e.isEoi = true → (f e).isEoi = true) (h : Void p eoi) : Void (mapErr f p) eoi := by
  obtain ⟨h1, e, h2, h3, h4⟩ := h
  exact ⟨h1, ⟨e.rem, f e.err⟩, by simp [mapErr, h2], h3, hf _ h4⟩

theorem void_bind_left {p : P O α} {f : α → P O β} (h : Void p eoi) : Void (bind p f) eoi := by
  obtain ⟨h1, e, h2, h3⟩ := h
  exact ⟨by simp [bind, h1, h2], e, by simp [bind, h2], h3⟩

theorem void_bind {p : P O α} {f : α → P O β} (h : VoidOk p eoi) (hf : ∀ a, Void (f a) eoi) : Void (bind p f) eoi := by
  obtain ⟨h1, ⟨a, alt, h2, h3⟩, h4⟩ := h
  obtain ⟨k1, e, k2, k3, k4⟩ := hf a
  simp only [Void, bind, h1, h2, h4, k1, k2]
  refine ⟨rfl, _, rfl, maxO_zero k3, ?_⟩
  exact endEoi_some.1 (endEoi_maxO (Void.endEoi k4) h3) (maxO_zero k3)

theorem void_orP {p q : P O α} (hp : Void p eoi) (hq : Void q eoi) : Void (orP p q) eoi := by
  obtain ⟨h1, e, h2, h3, h4⟩ := hp
  obtain ⟨k1, e', k2, k3, k4⟩ := hq
  have hm : ∀ {a b : Loc O}, a.rem = 0 → a.err.isEoi = true → b.err.isEoi = true → (a.max b).rem = 0 ∧ (a.max b).err.isEoi = true :=
    fun ha h1 h2 => ⟨max_zero ha, endEoi_some.1 (endEoi_max (Void.endEoi h1) (Void.endEoi h2)) (max_zero ha)⟩
  rcases orP_error h2 k2 with h | h
  · exact ⟨by simp [h, h1], _, by rw [h], hm h3 h4 k4⟩
  · exact ⟨by simp [h, k1], _, by rw [h], hm k3 k4 h4⟩

theorem void_choice {ps : List (P O α)} (hne : ps ≠ []) (h : ∀ p ∈ ps, Void p eoi) : Void (choice ps) eoi := by
  have key : ∀ (ps : List (P O α)) (alt : Option (Loc O)) pan, (∀ p ∈ ps, Void p eoi) →
      (ps ≠ [] ∨ alt ≠ none) → (∀ e, alt = some e → e.rem = 0 ∧ e.err.isEoi = true) → Void (choiceGo alt pan ps) eoi := by
    intro ps
    induction ps with
    | nil =>
      intro alt pan _ hne ha
      cases alt with
      | none => simp at hne
      | some e => exact ⟨rfl, e, rfl, ha e rfl⟩
    | cons p ps ih =>
      intro alt pan hp _ ha
      obtain ⟨h1, e, h2, h3, h4⟩ := hp p (List.mem_cons_self ..)
      have := ih (mergeAlts alt (some e)) (pan || (p eoi []).panicked || clashAlts alt (some e)) (fun q hq => hp q (List.mem_cons_of_mem _ hq))
        (Or.inr (by cases alt <;> simp [mergeAlts])) (by
          intro e' he'
          cases alt with
          | none => injection he' with he'; subst he'; exact ⟨h3, h4⟩
          | some a =>
            obtain ⟨a1, a2⟩ := ha a rfl
            injection he' with he'; subst he'
            exact ⟨max_zero h3, endEoi_some.1 (endEoi_max (Void.endEoi h4) (Void.endEoi a2)) (max_zero h3)⟩)
      have hr : choiceGo alt pan (p :: ps) eoi [] =
          choiceGo (mergeAlts alt (some e)) (pan || (p eoi []).panicked || clashAlts alt (some e)) ps eoi [] := by
        rw [choiceGo]; simp only [h2]
      rw [Void, hr]; exact this
  exact key ps none false h (Or.inl hne) (fun e he => by cases he)

theorem voidOk_orNot {p : P O α} (h : Void p eoi) : VoidOk (orNot p) eoi := by
  obtain ⟨h1, e, h2, h3, h4⟩ := h
  exact ⟨by simp [orNot, h2], ⟨none, some e, by simp [orNot, h2], Void.endEoi h4⟩, by simp [orNot, h2]⟩

theorem voidOk_repeated {p : P O α} (h : Void p eoi) : VoidOk (repeated p) eoi := by
  obtain ⟨h1, e, h2, h3, h4⟩ := h
  have : repeated p eoi [] = repGo p 0 none eoi 1 [] [] none false [] := rfl
  rw [VoidOk, this, repGo]
  simp only [h1, h2]
  exact ⟨rfl, ⟨_, _, rfl, Void.endEoi h4⟩, rfl⟩

theorem void_repeated1 {p : P O α} {mx : Option Nat} (hm : mx ≠ some 0) (h : Void p eoi) : Void (repeatedB 1 mx p) eoi := by
  obtain ⟨h1, e, h2, h3⟩ := h
  have : repeatedB 1 mx p eoi [] = repGo p 1 mx eoi 1 [] [] none false [] := rfl
  rw [Void, this, repGo]
  simp only [List.length_nil, if_neg hm, h1, h2]
  exact ⟨rfl, e, rfl, h3⟩

/-! ### The rules of the grammar -/

theorem isEoi_expected (k : Str) (e : PErr O) (h : e.isEoi = true) : (PErr.withExpectedKind k e).isEoi = true := by
  cases e with
  | unexpected l sp f x => cases f <;> first | rfl | (simp [PErr.isEoi] at h)
  | _ => simp [PErr.isEoi] at h

theorem isEoi_noExpected (e : PErr O) (h : e.isEoi = true) : (PErr.withNoExpected e).isEoi = true := by
  cases e with
  | unexpected l sp f x => cases f <;> first | rfl | (simp [PErr.isEoi] at h)
  | _ => simp [PErr.isEoi] at h

theorem void_beginComment (c) : Void (beginComment c : P O Unit) eoi :=
  by unfold beginComment; exact void_bind_left (void_mapErr isEoi_noExpected (void_just _))

theorem void_newline : Void (newline : P O Unit) eoi :=
  void_mapErr (isEoi_expected _) (void_pmap (void_orP (void_orP (void_orP (void_orP (void_orP
    (void_bind (voidOk_orNot (void_just _)) (fun _ => void_just _)) (void_just _)) (void_just _)) (void_just _)) (void_just _)) (void_just _)))

theorem void_comment : Void (comment : P O Unit) eoi := void_pmap (void_bind_left (void_beginComment _))

theorem void_sign : Void (sign : P O Char) eoi := void_orP (void_just _) (void_just _)

theorem void_bareIdent : Void (bareIdent : P O Str) eoi := by
  refine void_tryMap (void_choice (by simp) ?_)
  intro p hp
  simp only [List.mem_cons, List.not_mem_nil, or_false] at hp
  rcases hp with rfl | rfl | rfl
  · exact void_pmap (void_bind_left void_sign)
  · exact void_repeated1 (by simp) void_sign
  · exact void_pmap (void_bind_left (void_mapErr (isEoi_expected _) (void_filter _)))

theorem voidOk_optSign : VoidOk (optSign : P O (Option Char)) eoi := voidOk_orNot (void_orP (void_just _) (void_just _))

theorem void_number : Void (number : P O Literal) eoi := by
  refine void_orP (void_pmap (void_bind_left (void_bind voidOk_optSign fun a => void_pmap (void_just _)))) ?_
  exact void_pmap (void_bind_left (void_bind_left (void_bind_left (void_bind voidOk_optSign fun a => void_pmap (void_filter _)))))

theorem void_string : Void (string : P O Str) eoi :=
  void_orP (void_pmap (void_bind_left (void_bind_left (void_bind_left (void_just _))))) (void_bind_left (void_just _))

theorem void_ident : Void (ident : P O Str) eoi := by
  refine void_tryMap (void_choice (by simp) ?_)
  intro p hp
  simp only [List.mem_cons, List.not_mem_nil, or_false] at hp
  rcases hp with rfl | rfl | rfl
  · exact void_pmap void_number
  · exact void_pmap void_bareIdent
  · exact void_pmap void_string

theorem void_typeName : Void (typeName : P O TypeName) eoi := void_pmap (void_bind_left (void_bind_left (void_just _)))

theorem void_mlComment (he : eoi.length ≤ 2) : Void (mlComment : P O Unit) eoi := by
  obtain ⟨h1, e, h2, h3, h4⟩ : Void (mlCommentRec 1 : P O Unit) eoi := by
    rw [mlCommentRec_succ]
    exact void_bind_left (void_bind_left (void_beginComment _))
  refine ⟨h1, ⟨e.rem, e.err⟩, ?_, h3, h4⟩
  simp only [mlComment, mapErrWithSpan, List.length_nil, h2, mlCommentErr]
  have : ¬ (spanSince eoi ([] : List (Tok O)) (mlCommentRec 1 eoi []).rest).length > 2 := by
    have : spanSince eoi ([] : List (Tok O)) (mlCommentRec 1 eoi []).rest = eoi := rfl
    rw [this]; omega
  simp [this]

theorem void_ws (he : eoi.length ≤ 2) : Void (ws : P O Unit) eoi :=
  void_mapErr (isEoi_expected _) (void_orP (void_pmap (void_repeated1 (by simp) (void_pmap (void_filter _)))) (void_mlComment he))

theorem void_lineSpace (he : eoi.length ≤ 2) : Void (lineSpace : P O Unit) eoi :=
  void_orP (void_orP void_newline (void_ws he)) void_comment

theorem void_node {inner : P O (List (SpannedNode (Sp O)))} : Void (node inner) eoi :=
  void_pmap (void_bind_left (void_bind_left (void_bind_left (void_bind (voidOk_orNot (void_spanned void_typeName))
    fun _ => void_pmap (void_spanned void_ident)))))

theorem void_nodeItem {inner : P O (List (SpannedNode (Sp O)))} : Void (nodeItem inner) eoi :=
  void_bind (voidOk_orNot (void_bind_left (void_beginComment _))) fun _ => void_pmap (void_spanned void_node)

/-- No nodes at the end of the text. -/
theorem voidOk_nodes (he : eoi.length ≤ 2) (n : Nat) : VoidOk (nodesRec (n + 1) : P O _) eoi := by
  obtain ⟨d1, ⟨as, dalt, d2, d3⟩, d4⟩ := voidOk_repeated (void_lineSpace he)
  obtain ⟨i1, e, i2, i3, i4⟩ := void_nodeItem (inner := nodesRec n) (eoi := eoi)
  have : nodesRec (n + 1) eoi [] = pmap keepNodes (separatedBy (nodeItem (nodesRec n)) (repeated lineSpace)) eoi [] := by rw [nodesRec]
  have hm : mergeAlts none dalt = dalt := by cases dalt <;> rfl
  rw [VoidOk, this]
  simp only [pmap, separatedBy, sepDelim, d1, d2, d4, i1, i2, mergeAltsL, List.foldl_nil, hm]
  exact ⟨trivial, ⟨_, _, rfl, endEoi_merge d3 (Void.endEoi i4)⟩, trivial⟩

/-! ### Braces -/

/-- The diagnostic for braces left open. -/
def openBraces (sp : Sp O) : PErr O := .unclosed "curly braces".toList (sp.beforeStart 1) (.char '{') sp.atEnd (.char '}') .eoi

/-- The nodes in braces that are not closed. -/
theorem hits_openBraces (he : eoi.length ≤ 2) (b : BodyC) {n : Nat} {s s1 : List (Tok O)} (hn : s1.length ≤ n) (hT : Takes s ['{'] s1)
    (hok : b.Ok true ['\n']) (hT1 : Takes s1 (b.text ++ ['\n']) []) :
    Hits (openBraces (spanSince eoi s1 [])) (bracedNodes (nodesRec (n + 1))) eoi s := by
  obtain ⟨sp, s', rfl, h1⟩ := takes_cons.1 hT
  have := takes_nil.1 h1; subst this
  obtain ⟨pan1, vs1, errs1, alt1, u1, a1, a2⟩ := separatedBy_go (eats_nodeItem (suf_nodesRec n)) eoi s'
  obtain ⟨pan2, vs2, errs2, alt2, u2, b1, b2⟩ := separatedBy_go (eats_nodeItem (suf_nodesRec n)) eoi []
  obtain ⟨ws, vs, errs, alt', u, k1, k2⟩ := sepGo_body (eoi := eoi) b hn (t := []) (by simpa using hok) hT1
    (fuel := s'.length + 1) (outs := []) (alt := none) (pan := false) (by omega) (by intro e he; cases he)
  rw [a2] at k1
  rw [b2] at k2
  simp only [Prod.mk.injEq] at k1 k2
  obtain ⟨_, rfl, rfl, rfl⟩ := k1
  obtain ⟨_, rfl, rfl, rfl⟩ := k2
  have hs : nodesRec (n + 1) eoi s' = ⟨pan1, errs2, .ok (keepNodes vs1, alt2), u2⟩ := by
    rw [nodesRec]; simp only [pmap, a1]
  have ht : nodesRec (n + 1) eoi [] = ⟨pan2, errs2, .ok (keepNodes vs2, alt2), u2⟩ := by
    rw [nodesRec]; simp only [pmap, b1]
  obtain ⟨v1, ⟨_, alt, v2, v3⟩, v4⟩ := voidOk_nodes he n
  rw [ht] at v1 v2 v4
  simp only at v1 v2 v4
  subst v1 v4
  injection v2 with v2; injection v2 with _ v2; subst v2
  have hj : just '{' eoi (('{', sp) :: s') = pok '{' s' := by simp [just]
  obtain ⟨j1, e, j2, j3, j4⟩ := void_just (eoi := eoi) '}'
  have hz : (e.maxO alt2).rem = 0 := maxO_zero j3
  have hi : (e.maxO alt2).err.isEoi = true := endEoi_some.1 (endEoi_maxO (Void.endEoi j4) v3) hz
  have key : Hits (openBraces (spanSince eoi s' [])) (mapErrWithSpan bracesErr (thenIgnore (nodesRec (n + 1)) (just '}'))) eoi s' := by
    have hr : (just '}' eoi ([] : List (Tok O))).rest = [] := rfl
    simp only [Hits, mapErrWithSpan, thenIgnore, bind, pmap, hs, j1, j2, hr]
    refine ⟨rfl, ?_⟩
    have : bracesErr (e.maxO alt2).err (spanSince eoi s' []) = openBraces (spanSince eoi s' []) := by
      simp only [bracesErr, hi, if_true]
      exact merge_eoi hi rfl
    rw [hz, this]
  refine hits_bind rfl (a := '{') (alt := none) (by rw [hj]; rfl) (by rw [hj]; rfl) (Or.inr lb_none) ?_
  rw [hj]; exact key

/-- A text that ends in braces that are not closed. -/
theorem hitN_braces (he : eoi.length ≤ 2) {lines : List Line} {dash : Option (List Cst.Space)} {ty : Option Name} {name : Name}
    {items : List Item} {space : List Cst.Space} {dash' : Option (List Cst.Space)} (b : BodyC) (o : Open)
    {n : Nat} {s t u : List (Tok O)} (hn : s.length ≤ n) (hT : Takes s o.text t) (ho : o.Ok (chars t))
    (hl : openLeaf o = .node lines dash)
    (hT1 : Takes t (tyText ty ++ name.text ++ itemsText items ++ spacesText space ++ dashText dash' ++ ['{']) u)
    (hT2 : Takes u (b.text ++ ['\n']) []) (o3 : TyOk ty) (o4 : name.Ok) (o5 : NameStartOk ty name)
    (o6 : NameEndOk (itemsText items ++ (spacesText space ++ dashText dash' ++ '{' :: chars u)) name)
    (o7 : ItemsOk true (spacesText space ++ dashText dash' ++ '{' :: chars u) items)
    (o9 : SpacesOk true (dashText dash' ++ '{' :: chars u) space) (o10 : DashOk true ('{' :: chars u) dash') (hok : b.Ok true ['\n']) :
    HitN (openBraces (spanSince eoi u [])) n eoi s := by
  refine hitN_walk rfl o hn hT ho ?_
  intro m s' hm hT' ho'
  rw [hl] at hT' ho'
  obtain ⟨p1, p2⟩ := ho'
  obtain ⟨s1, g1, g2⟩ := takes_append.1 hT'
  have hT1' : Takes t (tyText ty ++ (name.text ++ (itemsText items ++ (spacesText space ++ (dashText dash' ++ ['{']))))) u := by
    simpa using hT1
  obtain ⟨s3, g3, hT1'⟩ := takes_append.1 hT1'
  obtain ⟨s4, g4, hT1'⟩ := takes_append.1 hT1'
  obtain ⟨s5, g5, hT1'⟩ := takes_append.1 hT1'
  obtain ⟨s6, g6, hT1'⟩ := takes_append.1 hT1'
  obtain ⟨s7, g7, g8⟩ := takes_append.1 hT1'
  have c7 : chars s7 = '{' :: chars u := by rw [g8.chars]; simp
  have c6 : chars s6 = dashText dash' ++ '{' :: chars u := by rw [g7.chars, c7]
  have c5 : chars s5 = spacesText space ++ dashText dash' ++ '{' :: chars u := by rw [g6.chars, c6]; simp
  have c4 : chars s4 = itemsText items ++ (spacesText space ++ dashText dash' ++ '{' :: chars u) := by rw [g5.chars, c5]
  have hlen : u.length + 1 ≤ m ∧ s7.length = u.length + 1 := by
    have := g1.length; have := g2.length; have := g3.length; have := g4.length
    have := g5.length; have := g6.length; have := g7.length; have := g8.length
    simp at this
    omega
  have hu : 1 ≤ u.length := by have := hT2.length; simp at this; omega
  obtain ⟨m, rfl⟩ : ∃ k, m = k + 1 := ⟨m - 1, by omega⟩
  exact hitN_block rfl g1 g2 g3 g4 g5 g6 g7 (by rw [g2.chars]; exact p1) p2 o3 o4 o5 (by rw [c4]; exact o6) (by rw [c5]; exact o7)
    (by rw [c6]; exact o9) (by rw [c7]; exact o10) c7 (by omega) (hits_openBraces he b (by omega) g8 hok hT2)

end

end Knuffel
