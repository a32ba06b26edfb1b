import Verif.Lemmas.BlockCost

/-! # C142: how many elements are copied when a block is put together -/

namespace Expression.Props

open Expression Spec Lemmas

variable {α β ε : Type}

/-- Concatenating blocks, traversing a block, repeating a parser and prepending one element after the other copy a number of elements that is linear
in the size of the input and of the result. -/
def C142_full_statement : Prop := ∃ c,
  (∀ {α : Type} (sources : List (Block α)), ∃ n ≤ c * (sources.length + totalLength sources + 1), Copies (Copying.concat sources) n (Block.concat sources)) ∧
  (∀ {α β ε : Type} (g : α → Res (Obj β) ε) (xs : List α), ∃ n ≤ c * (xs.length + 1),
    Copies (Copying.traverse (fun x => pure (g x)) ⟨xs⟩) n (inBlock (firstError (xs.map g)))) ∧
  (∀ {α : Type} (p : Parser Nat α) (w w' : Nat) (inp rest : Remaining) (vs : List α), Repeats p w inp vs rest w' → ∃ n ≤ c * (vs.length + 1),
    (Copying.many p inp).exec w = some (.ok (.ok (⟨vs⟩, rest)), w' + n)) ∧
  (∀ {α : Type} (xs : List α), ∃ n ≤ c * (xs.length + 1), Copies (Copying.consAll Block.empty xs) n ⟨xs.reverse⟩)

/-- Prepending `n` elements, one after the other, to an empty block copies `1 + 2 + ... + n`. -/
theorem C142_cons (xs : List α) : ∃ n, 2 * n = xs.length * (xs.length + 1) ∧ Copies (Copying.consAll Block.empty xs) n ⟨xs.reverse⟩ := by
  obtain ⟨n, hn, hx⟩ := BlockCost.copies_consAll Block.empty xs
  rw [show (Block.empty : Block α).value.length = 0 from rfl, Nat.zero_mul, Nat.add_zero, Nat.zero_add] at hn
  rw [show (Block.empty : Block α).value = [] from rfl, List.append_nil] at hx
  exact ⟨n, hn, hx⟩

/-- What holds: it is at most quadratic. -/
theorem C142_quadratic_partial :
    (∀ {α : Type} (sources : List (Block α)), ∃ n ≤ sources.length * totalLength sources, Copies (Copying.concat sources) n (Block.concat sources)) ∧
    (∀ {α β ε : Type} (g : α → Res (Obj β) ε) (xs : List α), ∃ n, 2 * n ≤ xs.length * (xs.length + 1) ∧
      Copies (Copying.traverse (fun x => pure (g x)) ⟨xs⟩) n (inBlock (firstError (xs.map g)))) ∧
    (∀ {α : Type} (p : Parser Nat α) (w w' : Nat) (inp rest : Remaining) (vs : List α), Repeats p w inp vs rest w' → ∃ n,
      2 * n ≤ vs.length * (vs.length + 1) ∧ (Copying.many p inp).exec w = some (.ok (.ok (⟨vs⟩, rest)), w' + n)) ∧
    (∀ {α : Type} (xs : List α), ∃ n, 2 * n ≤ xs.length * (xs.length + 1) ∧ Copies (Copying.consAll Block.empty xs) n ⟨xs.reverse⟩) := by
  refine ⟨fun sources => ?_, fun g xs => ?_, fun p w w' inp rest vs h => ?_, fun xs => ?_⟩
  · refine ⟨_, ?_, BlockCost.copies_concatFrom Block.empty sources⟩
    have h := BlockCost.concatCost_le 0 sources
    rw [Nat.zero_add] at h
    exact h
  · refine ⟨_, ?_, BlockCost.copies_traverse g xs⟩
    have h := BlockCost.traverseCost_le (xs.map g)
    rw [List.length_map] at h
    exact h
  · obtain ⟨n, hn, hx⟩ := BlockCost.copies_many h
    refine ⟨n, Nat.le_of_eq hn, ?_⟩
    rw [Copying.many, PyD.exec_bind, hx]
    rfl
  · obtain ⟨n, hn, hx⟩ := C142_cons xs
    exact ⟨n, Nat.le_of_eq hn, hx⟩

/-- `block.concat` of `k + 1` blocks of one element copies `2 + 3 + ... + (k + 1)`. -/
theorem C142_concat_singles (x : α) (k : Nat) : ∃ n, 2 * (n + 1) = (k + 1) * (k + 2) ∧
    Copies (Copying.concat (List.replicate (k + 1) ⟨[x]⟩)) n (Block.concat (List.replicate (k + 1) ⟨[x]⟩)) := by
  refine ⟨_, ?_, BlockCost.copies_concatFrom Block.empty _⟩
  rw [show (Block.empty : Block α).value.length = 0 from rfl, List.replicate_succ, BlockCost.concatCost]
  have h := BlockCost.concatCost_singles 1 x k (by decide)
  have e : BlockCost.appendCost 0 ([x] : List α).length = 0 := rfl
  rw [e, Nat.zero_add, show 0 + ([x] : List α).length = 1 from rfl]
  rw [show 1 + k = k + 1 by omega] at h
  omega

/-- `traverse` copies `2 + 3 + ... + n` if there is no error among the `n` results. -/
theorem C142_traverse_ok (g : α → Obj β) (x : α) (xs : List α) : ∃ n, 2 * (n + 1) = (xs.length + 1) * (xs.length + 2) ∧
    Copies (Copying.traverse (fun x => pure (Res.ok (g x) : Res (Obj β) ε)) ⟨x :: xs⟩) n (.ok ⟨g x :: xs.map g⟩) := by
  have h := BlockCost.copies_traverse (ε := ε) (fun x => Res.ok (g x)) (x :: xs)
  have e : (x :: xs).map (fun x => (Res.ok (g x) : Res (Obj β) ε)) = (g x :: xs.map g).map (fun v => Res.ok v) := by
    rw [List.map_cons, List.map_cons, List.map_map]
    rfl
  rw [e, BlockCost.firstError_ok] at h
  refine ⟨_, ?_, h⟩
  have := BlockCost.traverseCost_ok (ε := ε) (g x) (xs.map g)
  rw [List.length_map] at this
  exact this

/-- Repeating a parser that succeeds `n` times copies `1 + 2 + ... + n`, besides what the parser copies. -/
theorem C142_many {p : Parser Nat α} {w w' : Nat} {inp rest : Remaining} {vs : List α} (h : Repeats p w inp vs rest w') :
    ∃ n, 2 * n = vs.length * (vs.length + 1) ∧ (Copying.many p inp).exec w = some (.ok (.ok (⟨vs⟩, rest)), w' + n) := by
  obtain ⟨n, hn, hx⟩ := BlockCost.copies_many h
  refine ⟨n, hn, ?_⟩
  rw [Copying.many, PyD.exec_bind, hx]
  rfl

/-- Even prepending alone is not linear. -/
theorem C142_full_statement_false : ¬ C142_full_statement := by
  rintro ⟨c, -, -, -, h⟩
  obtain ⟨n, hle, hn⟩ := h (List.replicate (2 * c + 2) 0)
  obtain ⟨m, hm, hx⟩ := C142_cons (List.replicate (2 * c + 2) 0)
  have e := (hn 0).symm.trans (hx 0)
  have e' : n = m := by
    have := congrArg (fun o => o.map Prod.snd) e
    simpa using this
  rw [List.length_replicate] at hm hle
  subst e'
  have h1 : (2 * c + 2) * (2 * c + 2 + 1) = 2 * (c * (2 * c + 2 + 1)) + 2 * (2 * c + 2 + 1) := by ring
  omega

/-- the hypothesis of `C142_many`: a digit parser on two digits and a letter -/
example : ∃ vs rest, vs.length = 2 ∧ Repeats (Parser.parseDigit (σ := Nat)) 0 (['4', '2', 'x'], 0) vs rest 0 :=
  ⟨_, _, rfl, .more rfl (.more rfl (.stop rfl))⟩

/-- three elements: 2 + 3 are copied -/
example : (Copying.traverse (fun x => pure (Res.ok (.val (x + 1)) : Res (Obj Nat) Unit)) ⟨[1, 2, 3]⟩).exec 0 =
    some (.ok (.ok ⟨[.val 2, .val 3, .val 4]⟩), 5) := by
  obtain ⟨n, hn, hc⟩ := C142_traverse_ok (ε := Unit) (fun x : Nat => Obj.val (x + 1)) 1 [2, 3]
  have : n = 5 := by
    have e : ([2, 3] : List Nat).length = 2 := rfl
    rw [e] at hn
    omega
  subst this
  exact hc 0

end Expression.Props
