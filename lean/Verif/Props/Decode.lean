import Verif.Spec.Context
import Verif.Theory.Decode
import Verif.Theory.Print
import Verif.Theory.SimInst
import Verif.Model.ConvertAst
import Verif.Props.Total
/-!
# Decoding documents

C34 (`parse`), C35 (lists of nodes), C36 (the context), C37 (decoding into the syntax tree).
-/

namespace Knuffel
variable {E S T α : Type}

/-! ### C34 -/

section
variable {Ty : TypeId → Type}

theorem decodeParsed_ok {O : Type} (ast : Option (Except (List (PErr O)) (Document (Sp O))))
    (setCtx : Ctx (Extensions Ty) (Sp O) → Ctx (Extensions Ty) (Sp O)) (dec : ChildrenDecoder (Extensions Ty) (Sp O) α) (v : α) :
    decodeParsed ast setCtx dec = some (.ok v) ↔
      ∃ doc c, ast = some (.ok doc) ∧ dec doc.nodes (setCtx Ctx.new) = .ok v c ∧ c.errors = [] := by
  unfold decodeParsed
  cases h : ast with
  | none => simp
  | some r =>
    cases r with
    | error es => simp
    | ok doc =>
      simp only [Option.some.injEq, Except.ok.injEq, exists_and_left, exists_eq_left']
      cases h2 : dec doc.nodes (setCtx Ctx.new) with
      | ok w c =>
        simp only [Out.ok.injEq]
        cases he : c.errors with
        | nil =>
          simp only [Ctx.hasErrors, he]
          constructor
          · intro h; simp at h; exact ⟨c, ⟨h, rfl⟩, he⟩
          · rintro ⟨_, ⟨rfl, -⟩, -⟩; rfl
        | cons e es =>
          simp only [Ctx.hasErrors, he]
          constructor
          · intro h; simp at h
          · rintro ⟨c', ⟨-, rfl⟩, h⟩
            rw [he] at h
            cases h
      | err e c => simp
      | panic => simp

theorem decodeParsed_error {O : Type} (ast : Option (Except (List (PErr O)) (Document (Sp O))))
    (setCtx : Ctx (Extensions Ty) (Sp O) → Ctx (Extensions Ty) (Sp O)) (dec : ChildrenDecoder (Extensions Ty) (Sp O) α)
    (es : List (AnyErr O)) :
    decodeParsed ast setCtx dec = some (.error es) ↔
      (∃ pes, ast = some (.error pes) ∧ es = pes.map .parse) ∨
      (∃ doc, ast = some (.ok doc) ∧
        ((∃ v c, dec doc.nodes (setCtx Ctx.new) = .ok v c ∧ c.errors ≠ [] ∧ es = c.errors.map .decode) ∨
         (∃ e c, dec doc.nodes (setCtx Ctx.new) = .err e c ∧ es = (c.errors ++ [e]).map .decode))) := by
  unfold decodeParsed
  cases h : ast with
  | none => simp
  | some r =>
    cases r with
    | error pes => simp [eq_comm]
    | ok doc =>
      simp only [Option.some.injEq, Except.ok.injEq, reduceCtorEq, false_and, exists_false, false_or, exists_eq_left']
      cases h2 : dec doc.nodes (setCtx Ctx.new) with
      | ok w c =>
        cases he : c.errors with
        | nil => simp only [Ctx.hasErrors, he]; simp; intro h; exact absurd he h
        | cons e es' =>
          simp only [Ctx.hasErrors, he, Ctx.intoErrors]
          simp only [List.isEmpty_cons, Bool.not_false, if_true, Option.some.injEq, Except.error.injEq, Out.ok.injEq,
            reduceCtorEq, false_and, exists_false, or_false]
          constructor
          · rintro rfl; exact ⟨w, c, ⟨rfl, rfl⟩, by rw [he]; simp, by rw [he]⟩
          · rintro ⟨-, c', ⟨-, rfl⟩, -, rfl⟩; rw [he]
      | err e c =>
        simp only [Option.some.injEq, Except.error.injEq, reduceCtorEq, false_and, exists_false, false_or, Out.err.injEq,
          Ctx.intoErrors, Ctx.emitError]
        constructor
        · rintro rfl; exact ⟨e, c, ⟨rfl, rfl⟩, rfl⟩
        · rintro ⟨_, _, ⟨rfl, rfl⟩, rfl⟩; rfl
      | panic => simp

/-- **C34.** Success: exactly if the text was parsed, the decoder returned the value and
the context it left has no errors. -/
theorem c34_ok_iff (setCtx : Ctx (Extensions Ty) (Sp Nat) → Ctx (Extensions Ty) (Sp Nat))
    (dec : ChildrenDecoder (Extensions Ty) (Sp Nat) α) (text : Str) (v : α) :
    parseWithContext setCtx dec text = some (.ok v) ↔
      ∃ doc c, parseAst text = some (.ok doc) ∧ dec doc.nodes (setCtx Ctx.new) = .ok v c ∧ c.errors = [] :=
  decodeParsed_ok _ _ _ _

/-- **C34.** Failure: the errors are those of the parser, or those recorded by the decoder
in order, followed by the one it returned, if any. -/
theorem c34_error_iff (setCtx : Ctx (Extensions Ty) (Sp Nat) → Ctx (Extensions Ty) (Sp Nat))
    (dec : ChildrenDecoder (Extensions Ty) (Sp Nat) α) (text : Str) (es : List (AnyErr Nat)) :
    parseWithContext setCtx dec text = some (.error es) ↔
      (∃ pes, parseAst text = some (.error pes) ∧ es = pes.map .parse) ∨
      (∃ doc, parseAst text = some (.ok doc) ∧
        ((∃ v c, dec doc.nodes (setCtx Ctx.new) = .ok v c ∧ c.errors ≠ [] ∧ es = c.errors.map .decode) ∨
         (∃ e c, dec doc.nodes (setCtx Ctx.new) = .err e c ∧ es = (c.errors ++ [e]).map .decode))) :=
  decodeParsed_error _ _ _ _

/-- **C34** with line spans. Success: exactly if the text was parsed, the decoder returned the value and
the context it left has no errors. -/
theorem c34_ok_iff_line (width : Char → Nat) (strWidth : Str → Nat) (setCtx : Ctx (Extensions Ty) (Sp LinePos) → Ctx (Extensions Ty) (Sp LinePos))
    (dec : ChildrenDecoder (Extensions Ty) (Sp LinePos) α) (text : Str) (v : α) :
    parseWithContextLine width strWidth setCtx dec text = some (.ok v) ↔
      ∃ doc c, parseAstLine width strWidth text = some (.ok doc) ∧ dec doc.nodes (setCtx Ctx.new) = .ok v c ∧ c.errors = [] :=
  decodeParsed_ok _ _ _ _

/-- **C34** with line spans. Failure: the errors are those of the parser, or those recorded by the decoder
in order, followed by the one it returned, if any. -/
theorem c34_error_iff_line (width : Char → Nat) (strWidth : Str → Nat) (setCtx : Ctx (Extensions Ty) (Sp LinePos) → Ctx (Extensions Ty) (Sp LinePos))
    (dec : ChildrenDecoder (Extensions Ty) (Sp LinePos) α) (text : Str) (es : List (AnyErr LinePos)) :
    parseWithContextLine width strWidth setCtx dec text = some (.error es) ↔
      (∃ pes, parseAstLine width strWidth text = some (.error pes) ∧ es = pes.map .parse) ∨
      (∃ doc, parseAstLine width strWidth text = some (.ok doc) ∧
        ((∃ v c, dec doc.nodes (setCtx Ctx.new) = .ok v c ∧ c.errors ≠ [] ∧ es = c.errors.map .decode) ∨
         (∃ e c, dec doc.nodes (setCtx Ctx.new) = .err e c ∧ es = (c.errors ++ [e]).map .decode))) :=
  decodeParsed_error _ _ _ _

/-- **C34.** There is always a result, unless the decoder panics. -/
theorem c34_total (setCtx : Ctx (Extensions Ty) (Sp Nat) → Ctx (Extensions Ty) (Sp Nat))
    (dec : ChildrenDecoder (Extensions Ty) (Sp Nat) α) (text : Str) :
    parseWithContext setCtx dec text = none ↔
      ∃ doc, parseAst text = some (.ok doc) ∧ dec doc.nodes (setCtx Ctx.new) = .panic := by
  obtain ⟨r, hr⟩ := c01_parse_total text
  unfold parseWithContext decodeParsed
  rw [hr]
  cases r with
  | error pes => simp
  | ok doc =>
    simp only [Option.some.injEq, Except.ok.injEq, exists_eq_left']
    cases dec doc.nodes (setCtx Ctx.new) with
    | ok w c => simp only [reduceCtorEq, iff_false]; split <;> simp
    | err e c => simp
    | panic => simp

/-- **C34** for `parse`: the context starts empty. -/
theorem c34_parse (dec : ChildrenDecoder (Extensions Ty) (Sp Nat) α) (text : Str) (v : α) :
    parseDecode dec text = some (.ok v) ↔
      ∃ doc c, parseAst text = some (.ok doc) ∧ dec doc.nodes ⟨[], []⟩ = .ok v c ∧ c.errors = [] :=
  c34_ok_iff id dec text v

/-- **C34** for `decode::node`: the same without parsing. -/
theorem c34_node (empty : E) (dec : NodeDecoder E S α) (ast : SpannedNode S) :
    (∀ v, decodeNodeTop empty dec ast = some (.ok v) ↔ ∃ c, dec ast ⟨[], empty⟩ = .ok v c ∧ c.errors = []) ∧
    (∀ es, decodeNodeTop empty dec ast = some (.error es) ↔
      (∃ v c, dec ast ⟨[], empty⟩ = .ok v c ∧ c.errors ≠ [] ∧ es = c.errors) ∨
      (∃ e c, dec ast ⟨[], empty⟩ = .err e c ∧ es = c.errors ++ [e])) := by
  unfold decodeNodeTop
  cases dec ast ⟨[], empty⟩ with
  | ok v c =>
    obtain ⟨errs, ext⟩ := c
    cases errs with
    | nil =>
      refine ⟨fun w => ?_, fun es => ?_⟩
      · simp only [finish, Ctx.hasErrors]
        constructor
        · intro h; simp at h; exact ⟨_, by rw [h], rfl⟩
        · rintro ⟨c, h, -⟩; cases h; rfl
      · simp only [finish, Ctx.hasErrors]
        constructor
        · intro h; simp at h
        · rintro (⟨_, _, h, h', -⟩ | ⟨_, _, h, -⟩)
          · cases h; exact absurd rfl h'
          · cases h
    | cons e es =>
      simp only [finish, Ctx.hasErrors, Ctx.intoErrors]
      refine ⟨fun w => ?_, fun es' => ?_⟩
      · simp
      · simp only [List.isEmpty_cons, Bool.not_false, if_true, Option.some.injEq, Except.error.injEq, Out.ok.injEq,
          reduceCtorEq, false_and, exists_false, or_false]
        constructor
        · rintro rfl; exact ⟨v, _, ⟨rfl, rfl⟩, by simp, rfl⟩
        · rintro ⟨-, c', ⟨-, rfl⟩, -, rfl⟩; rfl
  | err e c =>
    simp only [finish, Ctx.intoErrors, Ctx.emitError]
    refine ⟨fun w => by simp, fun es' => ?_⟩
    simp only [Option.some.injEq, Except.error.injEq, reduceCtorEq, false_and, exists_false, false_or, Out.err.injEq]
    constructor
    · rintro rfl; exact ⟨e, c, ⟨rfl, rfl⟩, rfl⟩
    · rintro ⟨_, _, ⟨rfl, rfl⟩, rfl⟩; rfl
  | panic => simp [finish]

/-- A text and a decoder that fit the statements above: one error is recorded. -/
example : parseDecode (T := fun _ => Nat) (fun _ => do D.emit (.custom "no".toList); pure 7) [] =
    some (Except.error (ε := List (AnyErr Nat)) (α := Nat) [.decode (.custom "no".toList)]) :=
  (c34_error_iff id _ _ _).2 (Or.inr ⟨⟨[]⟩, by rfl, Or.inl ⟨7, _, rfl, by simp [Ctx.emitError], rfl⟩⟩)

end

/-! ### C35 -/

theorem vecLoop_ok (d : NodeDecoder E S α) (nodes : List (SpannedNode S)) (acc : List α) (c : Ctx E S) :
    (∀ r c', vecLoop d nodes acc c = .ok r c' ↔ ∃ vs, r = acc ++ vs ∧ Visits d c nodes vs c') ∧
    (∀ e c', vecLoop d nodes acc c ≠ .err e c') := by
  induction nodes generalizing acc c with
  | nil =>
    constructor
    · intro r c'
      rw [vecLoop, D.pure_eq]
      constructor
      · intro h; cases h; exact ⟨[], by simp, .nil⟩
      · rintro ⟨vs, rfl, h⟩; cases h; simp
    · intro e c'; rw [vecLoop, D.pure_eq]; simp
  | cons n ns ih =>
    cases h : d n c with
    | ok v c1 =>
      rw [show vecLoop d (n :: ns) acc c = vecLoop d ns (acc ++ [v]) c1 by rw [vecLoop]; simp only [h]]
      obtain ⟨h1, h2⟩ := ih (acc ++ [v]) c1
      refine ⟨fun r c' => ?_, h2⟩
      rw [h1]
      constructor
      · rintro ⟨vs, rfl, hv⟩; exact ⟨v :: vs, by simp, .ok h hv⟩
      · rintro ⟨vs, rfl, hv⟩
        cases hv with
        | ok h' hs => rw [h] at h'; cases h'; exact ⟨_, by simp, hs⟩
        | err h' hs => rw [h] at h'; cases h'
    | err e c1 =>
      rw [show vecLoop d (n :: ns) acc c = vecLoop d ns acc (c1.emitError e) by rw [vecLoop]; simp only [h]]
      obtain ⟨h1, h2⟩ := ih acc (c1.emitError e)
      refine ⟨fun r c' => ?_, h2⟩
      rw [h1]
      constructor
      · rintro ⟨vs, rfl, hv⟩; exact ⟨vs, rfl, .err h hv⟩
      · rintro ⟨vs, rfl, hv⟩
        cases hv with
        | ok h' hs => rw [h] at h'; cases h'
        | err h' hs => rw [h] at h'; cases h'; exact ⟨_, rfl, hs⟩
    | panic =>
      rw [show vecLoop d (n :: ns) acc c = .panic by rw [vecLoop]; simp only [h]]
      refine ⟨fun r c' => ?_, by simp⟩
      simp only [reduceCtorEq, false_iff]
      rintro ⟨vs, -, hv⟩
      cases hv with
      | ok h' hs => rw [h] at h'; cases h'
      | err h' hs => rw [h] at h'; cases h'

/-- **C35.** The result of decoding into `Vec<T>` is that of visiting each node in order;
decoding the list itself never fails. -/
theorem c35_visits (d : NodeDecoder E S α) (nodes : List (SpannedNode S)) (c : Ctx E S) :
    (∀ vs c', vecChildren d nodes c = .ok vs c' ↔ Visits d c nodes vs c') ∧ ∀ e c', vecChildren d nodes c ≠ .err e c' := by
  obtain ⟨h1, h2⟩ := vecLoop_ok d nodes [] c
  refine ⟨fun vs c' => ?_, h2⟩
  rw [vecChildren, h1]
  simp

/-- **C35** for decoders that depend on the node only: the values are those of the good
nodes, in order, and the errors those of the bad nodes, in order. -/
theorem c35_values (f : SpannedNode S → Except (DErr S) α) (nodes : List (SpannedNode S)) (c : Ctx E S) :
    vecChildren (fun n c => match f n with | .ok v => .ok v c | .error e => .err e c) nodes c =
      .ok (nodes.filterMap fun n => (f n).toOption)
        { c with errors := c.errors ++ nodes.filterMap fun n => match f n with | .ok _ => none | .error e => some e } := by
  refine ((c35_visits _ _ _).1 _ _).2 ?_
  induction nodes generalizing c with
  | nil => simpa using Visits.nil
  | cons n ns ih =>
    cases h : f n with
    | ok v =>
      have := ih c
      simp only [List.filterMap_cons, h, Except.toOption]
      exact .ok (by simp [h]) this
    | error e =>
      have := ih { c with errors := c.errors ++ [e] }
      rw [List.filterMap_cons, List.filterMap_cons]
      simp only [h, show (Except.error e : Except (DErr S) α).toOption = none from rfl]
      refine .err (c1 := c) (e := e) (by simp [h]) ?_
      simpa using this

/-- **C35**: nothing is skipped: with no more errors than before there is one value for each node. -/
theorem c35_all (d : NodeDecoder E S α) (hd : ∀ n, Keeps (d n)) (nodes : List (SpannedNode S)) (c c' : Ctx E S) (vs : List α)
    (h : vecChildren d nodes c = .ok vs c') (hc : c'.errors = c.errors) : vs.length = nodes.length := by
  rw [(c35_visits _ _ _).1] at h
  have keep : ∀ {c nodes vs c'}, Visits d c nodes vs c' → c.errors <+: c'.errors := by
    intro c nodes vs c' h
    induction h with
    | nil => exact List.prefix_rfl
    | ok h _ ih => exact ((hd _).ok h).trans ih
    | err h _ ih => exact ((hd _).err h).trans ((List.prefix_append _ _).trans ih)
  have : ∀ {c nodes vs c'}, Visits d c nodes vs c' → c'.errors.length = c.errors.length → vs.length = nodes.length := by
    intro c nodes vs c' h
    induction h with
    | nil => simp
    | ok h hs ih =>
      intro he
      have h1 := ((hd _).ok h).length_le
      have h2 := (keep hs).length_le
      simp [ih (by omega)]
    | err h hs ih =>
      intro he
      have h1 := ((hd _).err h).length_le
      have h2 := (keep hs).length_le
      simp at h2
      omega
  exact this h (by rw [hc])

example : vecChildren (E := List Nat) (fun n => pure n.span) [⟨3, .mk none ⟨0, []⟩ [] [] none⟩, ⟨4, .mk none ⟨0, []⟩ [] [] none⟩]
      ⟨[], []⟩ = .ok [3, 4] ⟨[], []⟩ ∧ ∀ n : SpannedNode Nat, Keeps (E := List Nat) (pure n.span : D (List Nat) Nat Nat) :=
  ⟨rfl, fun _ => Keeps.pure _⟩

/-- Three nodes; a decoder that rejects the second. -/
example : (let f : SpannedNode Nat → Except (DErr Nat) Nat := fun n => if n.span = 1 then .error (.custom []) else .ok n.span
    let nodes : List (SpannedNode Nat) :=
      [⟨0, .mk none ⟨0, []⟩ [] [] none⟩, ⟨1, .mk none ⟨0, []⟩ [] [] none⟩, ⟨2, .mk none ⟨0, []⟩ [] [] none⟩]
    nodes.filterMap (fun n => (f n).toOption) = [0, 2] ∧
    nodes.filterMap (fun n => match f n with | .ok _ => none | .error e => some e) = [.custom []]) := ⟨rfl, rfl⟩

/-! ### C36 -/

section
variable {Ty : TypeId → Type}

/-- One operation on the context. -/
def CtxOp.run (c : Ctx (Extensions Ty) S) : CtxOp Ty S → Ctx (Extensions Ty) S
  | .set id v => c.set id v
  | .emit e => c.emitError e

/-- The entries of the map have boxes of their own type. -/
def BoxesOk (m : Extensions Ty) : Prop := ∀ k b, m.get? k = some b → b.id = k

theorem get?_insert (m : Extensions Ty) (k k' : TypeId) (b : AnyBox Ty) :
    (m.insert k b).get? k' = if k = k' then some b else m.get? k' := by
  induction m with
  | nil => simp [Extensions.insert, Extensions.get?]
  | cons x m ih =>
    obtain ⟨kx, bx⟩ := x
    unfold Extensions.insert
    by_cases h : kx = k
    · subst h
      rw [if_pos rfl]
      simp only [Extensions.get?]
      split <;> rfl
    · rw [if_neg h]
      simp only [Extensions.get?, ih]
      by_cases h2 : kx = k'
      · rw [if_pos h2, if_pos h2, if_neg (by rintro rfl; exact h h2)]
      · rw [if_neg h2, if_neg h2]

theorem run_state (ops : List (CtxOp Ty S)) : ∀ c : Ctx (Extensions Ty) S,
    (ops.foldl CtxOp.run c).errors = c.errors ++ emitted ops ∧
    ∀ id, (ops.foldl CtxOp.run c).get id = (lastSet id ops).or (c.get id) := by
  induction ops with
  | nil => intro c; simp [emitted, lastSet]
  | cons op ops ih =>
    intro c
    obtain ⟨h1, h2⟩ := ih (op.run c)
    rw [List.foldl_cons]
    cases op with
    | emit e =>
      refine ⟨by rw [h1]; simp [CtxOp.run, emitted], fun id => ?_⟩
      rw [h2 id]
      rfl
    | set id' v =>
      refine ⟨by rw [h1]; rfl, fun id => ?_⟩
      rw [h2 id]
      simp only [lastSet]
      cases lastSet id ops with
      | some w => rfl
      | none =>
        simp only [CtxOp.run, Ctx.get, Ctx.set, get?_insert, Option.none_or]
        by_cases h : id' = id
        · subst h
          simp [AnyBox.downcast]
        · simp [h]

/-- **C36.** After any history, the value of a type is the one set last for it, and the
errors are those recorded, in order. -/
theorem c36_history (ops : List (CtxOp Ty S)) :
    (∀ id, (ops.foldl CtxOp.run Ctx.new).get id = lastSet id ops) ∧
    (ops.foldl CtxOp.run (Ctx.new : Ctx (Extensions Ty) S)).intoErrors = emitted ops ∧
    ((ops.foldl CtxOp.run (Ctx.new : Ctx (Extensions Ty) S)).hasErrors = true ↔ emitted ops ≠ []) := by
  obtain ⟨h1, h2⟩ := run_state ops (Ctx.new : Ctx (Extensions Ty) S)
  refine ⟨fun id => ?_, ?_, ?_⟩
  · rw [h2]
    simp [Ctx.get, Ctx.new, Extensions.get?]
  · simpa [Ctx.new, Ctx.intoErrors] using h1
  · rw [Ctx.hasErrors_iff, h1]
    simp [Ctx.new]

example : let ops : List (CtxOp (fun _ => Nat) Unit) := [.set 1 10, .emit (.custom []), .set 2 20, .set 1 11]
    lastSet 1 ops = some 11 ∧ lastSet 2 ops = some 20 ∧ lastSet 3 ops = none ∧ emitted ops = [.custom []] := by
  decide

end

/-! ### C37 -/

theorem sorted_mapProps (g : S → T) (l : List (Spanned Str S × Value S)) :
    (mapProps g l).map (·.1.value) = l.map (·.1.value) := by
  simp [mapProps, Spanned.mapSpan, Function.comp_def]

/-- The decoder of spans applies a function and leaves the context alone. -/
def SpanDecoder.Applies (ds : SpanDecoder E S T) (g : S → T) : Prop := ∀ s c, ds s c = (g s, c)

section
variable {ds : SpanDecoder E S T} {g : S → T} (hds : ds.Applies g)
include hds

theorem run_applies (s : S) (c : Ctx E S) : ds.run s c = .ok (g s) c := by
  simp [SpanDecoder.run, hds s c]

theorem cloneAs_applies {β : Type} (x : Spanned β S) (c : Ctx E S) : x.cloneAs ds c = .ok (x.mapSpan g) c := by
  rw [Spanned.cloneAs, D.bind_ok (run_applies hds _ _)]
  rfl

theorem cloneOpt_applies {β : Type} (x : Option (Spanned β S)) (c : Ctx E S) :
    cloneOpt ds x c = .ok (x.map (Spanned.mapSpan g)) c := by
  cases x with
  | none => rfl
  | some x =>
    rw [cloneOpt, D.bind_ok (cloneAs_applies hds _ _)]
    rfl

theorem value_applies (v : Value S) (c : Ctx E S) : (valueScalar ds).decode v c = .ok (v.mapSpan g) c := by
  show (cloneOpt ds v.typeName >>= _) c = _
  rw [D.bind_ok (cloneOpt_applies hds _ _), D.bind_ok (cloneAs_applies hds _ _)]
  rfl

omit hds in
theorem collect_pure {β γ : Type} {f : β → D E S γ} {h : β → γ} (hf : ∀ b c, f b c = .ok (h b) c) (l : List β) (c : Ctx E S) :
    D.collect f l c = .ok (l.map h) c := by
  induction l with
  | nil => rfl
  | cons x xs ih =>
    rw [D.collect, D.bind_ok (hf _ _), D.bind_ok ih]
    rfl

theorem props_apply (l : List (Spanned Str S × Value S)) (hl : (l.map (·.1.value)).Pairwise (· < ·)) (c : Ctx E S) :
    astProperties ds l c = .ok (mapProps g l) c := by
  unfold astProperties
  have hf : ∀ (b : Spanned Str S × Value S) (c : Ctx E S), (do
      let k ← b.1.cloneAs ds
      let v ← (valueScalar ds).decode b.2
      pure (k, v) : D E S (Spanned Str T × Value T)) c = .ok (b.1.mapSpan g, b.2.mapSpan g) c := by
    intro b c
    rw [D.bind_ok (cloneAs_applies hds _ _), D.bind_ok (value_applies hds _ _)]
    rfl
  rw [D.bind_ok (collect_pure hf l c), D.pure_eq]
  congr 1
  have := propMap_id (S := T) (l := mapProps g l) (by rw [sorted_mapProps]; exact hl)
  exact this

mutual
theorem astNode_applies (n : Node S) (hn : n.PropsSorted) (c : Ctx E S) : astNode ds n c = .ok (n.mapSpan g) c := by
  obtain ⟨ty, name, args, props, children⟩ := n
  rw [astNode, D.bind_ok (cloneOpt_applies hds _ _), D.bind_ok (cloneAs_applies hds _ _),
    D.bind_ok (collect_pure (value_applies hds) _ _), D.bind_ok (props_apply hds _ hn.1 _),
    D.bind_ok (astChildren_applies children hn.2 _)]
  rfl
theorem astChildren_applies (ch : Option (Spanned (List (Spanned (Node S) S)) S)) (h : ChildrenSorted ch) (c : Ctx E S) :
    astChildren ds ch c = .ok (mapChildren g ch) c := by
  match ch, h with
  | none, _ => rfl
  | some ⟨sp, l⟩, h =>
    rw [astChildren, D.bind_ok (run_applies hds _ _), D.bind_ok (astNodes_applies l h _)]
    rfl
theorem astNodes_applies (l : List (Spanned (Node S) S)) (h : NodesSorted l) (c : Ctx E S) :
    astNodes ds l c = .ok (mapNodes g l) c := by
  match l, h with
  | [], _ => rfl
  | ⟨sp, n⟩ :: rest, h =>
    rw [astNodes, D.bind_ok (run_applies hds _ _), D.bind_ok (astNode_applies n h.1 _), D.bind_ok (astNodes_applies rest h.2 _)]
    rfl
end

end

/-- **C37.** Decoding a node into the syntax tree gives the node with its spans decoded, and
no error.  (`lineToByte` and `same` are such decoders of spans.) -/
theorem c37_node (ds : SpanDecoder E S T) (g : S → T) (hds : ∀ s c, ds s c = (g s, c)) (n : SpannedNode S)
    (hn : n.value.PropsSorted) (c : Ctx E S) :
    astNodeDecoder ds n c = .ok (n.value.mapSpan g) c ∧
    astSpannedDecoder ds n c = .ok ⟨g n.span, n.value.mapSpan g⟩ c := by
  refine ⟨astNode_applies hds _ hn c, ?_⟩
  rw [astSpannedDecoder, D.bind_ok (run_applies hds _ _), D.bind_ok (astNode_applies hds _ hn _)]
  rfl

/-- **C37** with the same type of spans: it is the identity. -/
theorem c37_same (n : SpannedNode S) (hn : n.value.PropsSorted) (c : Ctx E S) :
    astSpannedDecoder SpanDecoder.same n c = .ok n c := by
  rw [(c37_node SpanDecoder.same id (fun _ _ => rfl) n hn c).2]
  rw [node_mapSpan_id]
  rfl

/-- **C37** for values and literals. -/
theorem c37_value (v : Value S) (c : Ctx E S) :
    (valueScalar SpanDecoder.same).decode v c = .ok v c ∧ (literalScalar (E := E)).decode v c = .ok v.literal.value c := by
  refine ⟨?_, rfl⟩
  rw [value_applies (ds := SpanDecoder.same) (g := id) (fun _ _ => rfl)]
  obtain ⟨tn, l⟩ := v
  cases tn <;> rfl

mutual
theorem node_sorted_of_printable {P : TypeName → Prop} (g : S → Unit) (n : Node S) (h : (n.mapSpan g).Printable P) : n.PropsSorted := by
  obtain ⟨ty, name, args, props, children⟩ := n
  refine ⟨?_, children_sorted_of_printable g children h.2.2.2.2⟩
  have := h.2.2.2.1
  rwa [sorted_mapProps] at this
theorem children_sorted_of_printable {P : TypeName → Prop} (g : S → Unit) (ch : Option (Spanned (List (Spanned (Node S) S)) S))
    (h : PrintableChildren P (mapChildren g ch)) : ChildrenSorted ch := by
  match ch, h with
  | none, _ => trivial
  | some ⟨sp, l⟩, h => exact nodes_sorted_of_printable g l h
theorem nodes_sorted_of_printable {P : TypeName → Prop} (g : S → Unit) (l : List (Spanned (Node S) S))
    (h : PrintableNodes P (mapNodes g l)) : NodesSorted l := by
  match l, h with
  | [], _ => trivial
  | ⟨sp, n⟩ :: rest, h => exact ⟨node_sorted_of_printable g n h.1, nodes_sorted_of_printable g rest h.2⟩
end

/-- **C37**: the nodes of every parsed document fit the hypothesis. -/
theorem c37_parsed_sorted (text : Str) (d : Document (Sp Nat)) (h : parseAst text = some (.ok d)) : NodesSorted d.nodes :=
  nodes_sorted_of_printable _ _ (parsed_printable h)

/-- **C37** from the text: `parse::<Vec<SpannedNode>>` gives exactly the nodes of
`parse_ast`, and fails exactly if `parse_ast` does, with its errors. -/
theorem c37_parse {Ty : TypeId → Type} (text : Str) :
    parseDecode (T := Ty) (vecChildren (astSpannedDecoder SpanDecoder.same)) text =
      (parseAst text).map fun r => match r with
        | .ok d => .ok d.nodes
        | .error es => .error (es.map .parse) := by
  obtain ⟨r, hr⟩ := c01_parse_total text
  rw [hr]
  cases r with
  | error es => exact (c34_error_iff id _ _ _).2 (Or.inl ⟨es, hr, rfl⟩)
  | ok d =>
    refine (c34_ok_iff id _ _ _).2 ⟨d, Ctx.new, hr, ?_, rfl⟩
    refine ((c35_visits _ _ _).1 _ _).2 ?_
    have := c37_parsed_sorted text d hr
    generalize d.nodes = l at this
    show Visits _ Ctx.new l l Ctx.new
    induction l with
    | nil => exact .nil
    | cons n ns ih => exact .ok (c37_same n this.1 _) (ih this.2)

theorem mapNodes_eq_map (g : S → T) (l : List (Spanned (Node S) S)) :
    mapNodes g l = l.map fun n => ⟨g n.span, n.value.mapSpan g⟩ := by
  induction l with
  | nil => rfl
  | cons n l ih => obtain ⟨sp, n⟩ := n; simp [mapNodes, ih]

mutual
theorem node_sorted_mapSpan (g : S → T) (n : Node S) (h : (n.mapSpan g).PropsSorted) : n.PropsSorted := by
  obtain ⟨ty, name, args, props, children⟩ := n
  refine ⟨?_, children_sorted_map g children h.2⟩
  have := h.1
  rwa [sorted_mapProps] at this
theorem children_sorted_map (g : S → T) (ch : Option (Spanned (List (Spanned (Node S) S)) S))
    (h : ChildrenSorted (mapChildren g ch)) : ChildrenSorted ch := by
  match ch, h with
  | none, _ => trivial
  | some ⟨sp, l⟩, h => exact nodes_sorted_map g l h
theorem nodes_sorted_map (g : S → T) (l : List (Spanned (Node S) S)) (h : NodesSorted (mapNodes g l)) : NodesSorted l := by
  match l, h with
  | [], _ => trivial
  | ⟨sp, n⟩ :: rest, h => exact ⟨node_sorted_mapSpan g n h.1, nodes_sorted_map g rest h.2⟩
end

/-- **C37** from the text with lines and columns into a syntax tree with spans of bytes: it is
the tree of `parse_ast::<Span>`. -/
theorem c37_parse_line {Ty : TypeId → Type} (width : Char → Nat) (strWidth : Str → Nat) (text : Str) (d : Document (Sp Nat))
    (h : parseAst text = some (.ok d)) :
    parseWithContextLine (T := Ty) width strWidth id (vecChildren (astSpannedDecoder SpanDecoder.lineToByte)) text = some (.ok d.nodes) := by
  rcases c21_line_agrees width strWidth text with ⟨d', h1, h2⟩ | ⟨es, h1, h2⟩
  · rw [h] at h2
    cases h2
    refine (c34_ok_iff_line width strWidth id _ _ _).2 ⟨d', Ctx.new, h1, ?_, rfl⟩
    refine ((c35_visits _ _ _).1 _ _).2 ?_
    have := nodes_sorted_map _ _ (c37_parsed_sorted text _ h)
    show Visits _ Ctx.new d'.nodes (mapNodes _ d'.nodes) Ctx.new
    rw [mapNodes_eq_map]
    generalize d'.nodes = l at this
    induction l with
    | nil => exact .nil
    | cons n ns ih => exact .ok (c37_node SpanDecoder.lineToByte LinePos.toOffsetSpan (fun _ _ => rfl) n this.1 _).2 (ih this.2)
  · rw [h] at h2; cases h2

example : ∃ d, parseAst "n a=1 { m; }".toList = some (.ok d) ∧ d.nodes.map (·.span) = [⟨0, 12⟩] := by
  obtain ⟨d, h, hd⟩ := of_parse (text := "n a=1 { m; }".toList) (fun d => decide (d.nodes.map (·.span) = [⟨0, 12⟩])) (by decide +kernel)
  exact ⟨d, h, by simpa using hd⟩

example : Node.PropsSorted (S := Nat) (.mk none ⟨0, ['n']⟩ [] [(⟨1, ['a']⟩, ⟨none, ⟨2, .null⟩⟩), (⟨3, ['b']⟩, ⟨none, ⟨4, .null⟩⟩)] none) :=
  ⟨by decide, trivial⟩

end Knuffel
