import Verif.Props.Match

/-! # C108: patterns for collections -/

namespace Expression.Props

open Spec Lemmas Lemmas.Match

variable {A : Type} [PyValue (Thing A)]

/-- **C108 (blocks).** `case Block(p)` matches a block exactly if `p` matches the tuple of its items, in order. -/
theorem C108_block (b : Block (Thing A)) (p : Pat A) : (Pat.klass blockClass [p] []).run b.thing = p.run (.tuple b.value) :=
  (run_cls_some (vs := [.tuple b.value]) _ rfl rfl).trans (runAll_one _ _)

/-- **C108 (blocks of a given length).** `case Block([x1, ..., xn])` matches exactly the blocks of `n` items, and binds them in order. -/
theorem C108_block_items (b : Block (Thing A)) (names : List String) :
    (Pat.klass blockClass [.seq (names.map .capture)] []).run b.thing =
      .ok (if b.value.length = names.length then some (names.zip b.value) else none) := by
  rw [C108_block]
  exact run_seq_captures names _ _ rfl

/-- **C108 (the first items and the rest).** `case Block([x1, ..., *x, y1, ...])` matches exactly the blocks with enough items; the names
before the star are bound to the first items, those after it to the last ones, and `x` to a list of the ones between. -/
theorem C108_block_star (b : Block (Thing A)) (pre post : List String) (x : String) :
    (∀ first middle last, b.value = first ++ middle ++ last → first.length = pre.length → last.length = post.length →
      (Pat.klass blockClass [.seqStar (pre.map .capture) (some x) (post.map .capture)] []).run b.thing =
        .ok (some (pre.zip first ++ (x, .list middle) :: post.zip last))) ∧
    (b.value.length < pre.length + post.length →
      (Pat.klass blockClass [.seqStar (pre.map .capture) (some x) (post.map .capture)] []).run b.thing = .ok none) := by
  rw [C108_block]
  exact run_seqStar_captures pre post x _ _ rfl

/-- **C108 (head and tail).** `case Block([h, *t])` matches exactly the blocks that are not empty. -/
theorem C108_block_cons (h t : String) (items : List (Thing A)) :
    (Pat.klass blockClass [.seqStar [.capture h] (some t) []] []).run (Block.thing ⟨items⟩) =
      .ok (match items with | [] => none | a :: as => some [(h, a), (t, .list as)]) := by
  cases items with
  | nil => exact (C108_block_star ⟨[]⟩ [h] [] t).2 (by simp)
  | cons a as => exact (C108_block_star ⟨a :: as⟩ [h] [] t).1 [a] as [] (by simp) rfl rfl

/-- **C108 (sequence patterns).** Without the name of the class no sequence pattern matches a block, a sequence or a map; a typed array is
matched by its elements, in order. -/
theorem C108_bare :
    (∀ (o : Thing A), (∃ b : Block (Thing A), o = b.thing) ∨ (∃ i, o = seqThing i) ∨ (∃ t, o = mapThing t) → ∀ ps pre post star,
      (Pat.seq ps).run o = .ok none ∧ (Pat.seqStar pre star post).run o = .ok none) ∧
    (∀ (items : List (Thing A)) (code : Thing A) (names : List String),
      (Pat.seq (names.map .capture)).run (typedArrayThing items code) =
        .ok (if items.length = names.length then some (names.zip items) else none)) ∧
    (∀ (first middle last : List (Thing A)) (code : Thing A) (pre post : List String) (x : String), first.length = pre.length →
      last.length = post.length → (Pat.seqStar (pre.map .capture) (some x) (post.map .capture)).run (typedArrayThing (first ++ middle ++ last) code) =
        .ok (some (pre.zip first ++ (x, .list middle) :: post.zip last))) ∧
    (∀ (items : List (Thing A)) (code : Thing A) (pre post : List String) (x : String), items.length < pre.length + post.length →
      (Pat.seqStar (pre.map .capture) (some x) (post.map .capture)).run (typedArrayThing items code) = .ok none) := by
  refine ⟨?_, fun items code names => run_seq_captures names _ _ rfl,
    fun first middle last code pre post x h1 h2 => (run_seqStar_captures pre post x _ _ rfl).1 _ _ _ rfl h1 h2,
    fun items code pre post x h => (run_seqStar_captures pre post x _ _ rfl).2 h⟩
  rintro o (⟨b, rfl⟩ | ⟨i, rfl⟩ | ⟨t, rfl⟩) ps pre post star <;> constructor <;> rw [Pat.run] <;> rfl

/-- The full property: `case C(x)` matches what the constructor of the collection class `C` returns, for all of them. -/
def C108_full_statement : Prop :=
  (∀ (b : Block (Thing Unit)) (x : String), ∃ r, (Pat.klass blockClass [.capture x] []).run b.thing = .ok (some r)) ∧
  (∀ (i : Thing Unit) (x : String), ∃ r, (Pat.klass seqClass [.capture x] []).run (seqThing i) = .ok (some r)) ∧
  (∀ (items : List (Thing Unit)) (code : Thing Unit) (x : String), ∃ r,
    (Pat.klass typedArrayClass [.capture x] []).run (typedArrayThing items code) = .ok (some r)) ∧
  (∀ (t : Thing Unit) (x : String), ∃ r, (Pat.klass mapClass [.capture x] []).run (mapThing t) = .ok (some r))

/-- **C108 (the other collections).** `Seq(p)` and `TypedArray(p, ...)` never match, whatever the object and the patterns; `Map(p)` raises
`TypeError` on every map; all three match without a pattern in the parentheses. -/
theorem C108_others_partial (p : Pat A) (ps : List (Pat A)) :
    (∀ i, (Pat.klass seqClass [p] []).run (seqThing i) = .ok none) ∧
    (∀ items code, ps.length ≤ 1 → (Pat.klass typedArrayClass (p :: ps) []).run (typedArrayThing items code) = .ok none) ∧
    (∀ t, ∃ msg, (Pat.klass mapClass (p :: ps) []).run (mapThing t : Thing A) = .error (.typeError msg)) ∧
    (∀ i, (Pat.klass seqClass [] []).run (seqThing i : Thing A) = .ok (some [])) ∧
    (∀ items code, (Pat.klass typedArrayClass [] []).run (typedArrayThing items code : Thing A) = .ok (some [])) ∧
    (∀ t, (Pat.klass mapClass [] []).run (mapThing t : Thing A) = .ok (some [])) := by
  have empty : ∀ (c : PyClass) (o : Thing A), o.isInstance c.id = true → (Pat.klass c [] []).run o = .ok (some []) := by
    intro c o h
    refine (run_cls_some (vs := []) _ h ?_).trans (by simp [Pat.runAll])
    simp [Pat.attributes, Pat.readAttrs]
  refine ⟨fun i => run_cls_none _ rfl rfl, fun items code h => ?_, fun t => ?_, fun i => empty _ _ rfl, fun items code => empty _ _ rfl,
    fun t => empty _ _ rfl⟩
  · match ps, h with
    | [], _ => exact run_cls_none _ rfl rfl
    | [q], _ => exact run_cls_none _ rfl rfl
  · exact ⟨_, run_cls_error (c := mapClass) (nargs := (p :: ps).length) (kw := []) _ (o := mapThing t) rfl rfl⟩

/-- **C108 is false of the code**: `case Seq(x)` matches no sequence. -/
theorem C108_full_statement_false : ¬ C108_full_statement := by
  intro h
  obtain ⟨r, hr⟩ := h.2.1 .none "x"
  rw [(C108_others_partial (.capture "x") []).1 .none] at hr
  exact nomatch hr

/-- C108 is not vacuous: `Block([first, *rest])` on a block of three. -/
example : (Pat.klass blockClass [.seqStar [.capture "h"] (some "t") []] []).run (A := Unit) (Block.thing ⟨[.int 1, .int 2, .int 3]⟩) =
    .ok (some [("h", .int 1), ("t", .list [.int 2, .int 3])]) := C108_block_cons ..

end Expression.Props
