import Verif.Lemmas.TraverseAny

/-! # C150: `traverse` and `sequence` with functions that fail in any way -/

namespace Expression.Props

open Expression PyD Expression.TraverseAny Spec.TraverseAny

variable {σ α β ε : Type}

/-- the claim: what `traverse` returns is a `Result`, as its annotation says -/
def C150_full_statement : Prop :=
  ∀ (σ α β ε : Type) (fn : α → PyD σ (Answer β ε)) (xs : List α) (w w' : σ) (r : Eff (Traverse.TVal β) ε),
    (traverse fn ⟨xs⟩).exec w = some (.ok r, w') → ∃ q, r = .res q

/-- For every function and every block: `fn` is attempted on the elements, the last one first, up to the first exception that is no `EffectError`;
then the outcome is the block of all values, or the failure of the first element that failed, be it returned or raised. -/
theorem C150_traverse (fn : α → PyD σ (Answer β ε)) (xs : List α) :
    traverse fn ⟨xs⟩ = (do let rs ← attempts fn xs; pure (returned (firstFailure rs))) :=
  Lemmas.TraverseAny.traverse_eq fn xs

/-- a function that logs its argument; it raises `EffectError(Nothing)` on 0, raises `EffectError(Error(1))` on 1, returns `Error(2)` on 2,
returns `Some(3)` on 3, raises `StopIteration` on 4, `KeyError` on 5, and returns `Ok(n)` on all other numbers -/
def anyAnswer (n : Nat) : PyD (List Nat) (Answer Nat Nat) := fun log =>
  match n with
  | 0 => some (.ok (.raised .nothing), log ++ [n])
  | 1 => some (.ok (.raised (.error 1)), log ++ [n])
  | 2 => some (.ok (.res (.error 2)), log ++ [n])
  | 3 => some (.ok (.opt (some (.val 3))), log ++ [n])
  | 4 => some (.error .stopIteration, log ++ [n])
  | 5 => some (.error (.keyError "5"), log ++ [n])
  | n => some (.ok (.res (.ok (.val n))), log ++ [n])

theorem C150_full_statement_false : ¬ C150_full_statement := by
  intro h
  have h0 : (traverse anyAnswer ⟨[7, 0]⟩).exec [] = some (.ok (.opt none), [0, 7]) := by
    rw [C150_traverse]; rfl
  obtain ⟨q, hq⟩ := h _ _ _ _ anyAnswer [7, 0] [] _ _ h0
  cases hq

/-- What came of the elements, when the call of `traverse` returned. -/
private theorem C150_attempts {fn : α → PyD σ (Answer β ε)} {xs : List α} {w w' : σ} {r : Eff (Traverse.TVal β) ε}
    (h : (traverse fn ⟨xs⟩).exec w = some (.ok r, w')) :
    ∃ rs, (attempts fn xs).exec w = some (.ok rs, w') ∧ r = returned (firstFailure rs) := by
  rw [C150_traverse, exec_bind] at h
  rcases ha : (attempts fn xs).exec w with _ | ⟨e | rs, w1⟩ <;> rw [ha] at h <;> cases h
  exact ⟨rs, rfl, rfl⟩

/-- What is returned is `Nothing`, `Error(e)` or `Ok` of a block, and exactly: `Nothing` if the first element that failed failed with `Nothing`;
`Error(e)` if it failed with `e`; `Ok` of the block of the values if none failed. -/
theorem C150_returned {fn : α → PyD σ (Answer β ε)} {xs : List α} {w w' : σ} {r : Eff (Traverse.TVal β) ε}
    (h : (traverse fn ⟨xs⟩).exec w = some (.ok r, w')) :
    ∃ rs : List (Except (Failure ε) (Obj β)), (attempts fn xs).exec w = some (.ok rs, w') ∧
      ((∃ (vs : List (Obj β)) (rest : _), rs = vs.map .ok ++ .error .nothing :: rest ∧ r = .opt none) ∨
       (∃ (vs : List (Obj β)) (e : ε) (rest : _), rs = vs.map .ok ++ .error (.error e) :: rest ∧ r = .res (.error e)) ∨
       (∃ vs : List (Obj β), rs = vs.map .ok ∧ r = .res (.ok (.val (.block ⟨vs⟩))))) := by
  obtain ⟨rs, ha, rfl⟩ := C150_attempts h
  refine ⟨rs, ha, ?_⟩
  rcases hf : firstFailure rs with (_ | e) | vs
  · obtain ⟨vs, rest, hr⟩ := Lemmas.TraverseAny.firstFailure_error.1 hf
    exact .inl ⟨vs, rest, hr, rfl⟩
  · obtain ⟨vs, rest, hr⟩ := Lemmas.TraverseAny.firstFailure_error.1 hf
    exact .inr (.inl ⟨vs, e, rest, hr, rfl⟩)
  · exact .inr (.inr ⟨vs, Lemmas.TraverseAny.firstFailure_ok.1 hf, rfl⟩)

/-- What holds of the claim: a `Result` is returned, if no call fails with `Nothing`, neither returned nor raised.  Missing: any function. -/
theorem C150_result_partial {fn : α → PyD σ (Answer β ε)} {xs : List α} {w w' : σ} {r : Eff (Traverse.TVal β) ε}
    (hn : ∀ x ∈ xs, ∀ v v', (fn x).exec v ≠ some (.ok (.opt none), v') ∧ (fn x).exec v ≠ some (.ok (.raised .nothing), v') ∧
      (fn x).exec v ≠ some (.error .effectError, v'))
    (h : (traverse fn ⟨xs⟩).exec w = some (.ok r, w')) : ∃ q, r = .res q := by
  have key : ∀ (xs : List α) (w w' : σ) rs, (∀ x ∈ xs, ∀ v v', (fn x).exec v ≠ some (.ok (.opt none), v') ∧
      (fn x).exec v ≠ some (.ok (.raised .nothing), v') ∧ (fn x).exec v ≠ some (.error .effectError, v')) →
      (attempts fn xs).exec w = some (.ok rs, w') → .error .nothing ∉ rs := by
    intro xs
    induction xs with
    | nil => intro w w' rs _ h; cases h; exact List.not_mem_nil
    | cons x xs ih =>
      intro w w' rs hn h
      rw [attempts, exec_bind] at h
      rcases h1 : (attempts fn xs).exec w with _ | ⟨e | rs1, w1⟩ <;> rw [h1] at h
      · cases h
      · cases h
      dsimp only at h
      rw [exec_bind] at h
      have h3 := hn x List.mem_cons_self w1
      have ih' := ih w w1 rs1 (fun y hy => hn y (List.mem_cons_of_mem _ hy)) h1
      have e3 : (attempt (fn x)).exec w1 = match (fn x).exec w1 with
        | none => none
        | some (.ok a, w') => some (.ok (meaning a), w')
        | some (.error .effectError, w') => some (.ok (.error .nothing), w')
        | some (.error .stopIteration, w') => some (.error (.failwith "generator raised StopIteration"), w')
        | some (.error e, w') => some (.error e, w') := rfl
      rw [e3] at h
      rcases hx : (fn x).exec w1 with _ | ⟨e | a, w2⟩ <;> rw [hx] at h h3
      · cases h
      · cases e <;> first | exact absurd rfl (h3 w2).2.2 | cases h
      · rcases a with (v | e) | (_ | v) | (_ | e) <;> cases h <;>
          first
          | exact absurd rfl (h3 _).1
          | exact absurd rfl (h3 _).2.1
          | (intro hm; rcases List.mem_cons.1 hm with hm | hm
             · cases hm
             · exact ih' hm)
  obtain ⟨rs, ha, hr⟩ := C150_returned h
  rcases hr with ⟨vs, rest, rfl, rfl⟩ | ⟨_, e, _, _, rfl⟩ | ⟨vs, _, rfl⟩
  · exact absurd (List.mem_append_right _ List.mem_cons_self) (key xs w w' _ hn ha)
  · exact ⟨_, rfl⟩
  · exact ⟨_, rfl⟩

/-- No exception is swallowed or invented: `traverse` raises exactly when an attempt raises, and the same exception. -/
theorem C150_raises (fn : α → PyD σ (Answer β ε)) (xs : List α) (w w' : σ) (e : PyErr) :
    (traverse fn ⟨xs⟩).exec w = some (.error e, w') ↔ (attempts fn xs).exec w = some (.error e, w') := by
  rw [C150_traverse, exec_bind]
  rcases h0 : (attempts fn xs).exec w with _ | ⟨e' | rs, w1⟩
  · constructor <;> intro h <;> cases h
  · constructor <;> intro h <;> cases h <;> rfl
  · constructor <;> intro h <;> cases h

/-- `traverse` never raises `EffectError`, so it can be called in a block of results without ending it. -/
theorem C150_no_effect_error (fn : α → PyD σ (Answer β ε)) (xs : List α) (w w' : σ) :
    (traverse fn ⟨xs⟩).exec w ≠ some (.error .effectError, w') ∧ (traverse fn ⟨xs⟩).exec w ≠ some (.error .stopIteration, w') := by
  have one : ∀ x (w w' : σ) e, (attempt (fn x)).exec w = some (.error e, w') → e ≠ .effectError ∧ e ≠ .stopIteration := by
    intro x w w' e h
    have e3 : (attempt (fn x)).exec w = match (fn x).exec w with
      | none => none
      | some (.ok a, w') => some (.ok (meaning a), w')
      | some (.error .effectError, w') => some (.ok (.error .nothing), w')
      | some (.error .stopIteration, w') => some (.error (.failwith "generator raised StopIteration"), w')
      | some (.error e, w') => some (.error e, w') := rfl
    rw [e3] at h
    rcases hf : (fn x).exec w with _ | ⟨e | a, w2⟩ <;> rw [hf] at h
    · cases h
    · cases e <;> cases h <;> exact ⟨(fun h => nomatch h), (fun h => nomatch h)⟩
    · cases h
  have all : ∀ xs (w w' : σ) e, (attempts fn xs).exec w = some (.error e, w') → e ≠ .effectError ∧ e ≠ .stopIteration := by
    intro xs
    induction xs with
    | nil => intro w w' e h; cases h
    | cons x xs ih =>
      intro w w' e h
      rw [attempts, exec_bind] at h
      rcases h1 : (attempts fn xs).exec w with _ | ⟨e1 | rs1, w1⟩ <;> rw [h1] at h
      · cases h
      · cases h; exact ih _ _ _ h1
      dsimp only at h
      rw [exec_bind] at h
      rcases h2 : (attempt (fn x)).exec w1 with _ | ⟨e2 | r, w2⟩ <;> rw [h2] at h <;> cases h
      exact one _ _ _ _ h2
  exact ⟨fun h => (all xs w w' _ ((C150_raises fn xs w w' _).1 h)).1 rfl, fun h => (all xs w w' _ ((C150_raises fn xs w w' _).1 h)).2 rfl⟩

/-- `sequence` of a block of results and options: `Ok` of all their values, or the first of them that has none, as it is. -/
theorem C150_sequence (rs : List (Answer β ε)) : sequence (σ := σ) ⟨rs⟩ = pure (returned (firstFailure (rs.map meaning))) := by
  have : attempts (σ := σ) (fun x => pure x) rs = pure (rs.map meaning) := by
    induction rs with
    | nil => rfl
    | cons r rs ih => rw [attempts, ih]; rfl
  rw [sequence, C150_traverse, this, pure_bind]

/-- With a function that returns results or raises other exceptions this is the `traverse` of C43. -/
theorem C150_agrees (fn : α → PyD σ (Res (Obj β) ε)) (xs : List α)
    (he : ∀ x w w', (fn x).exec w ≠ some (.error .effectError, w')) (hs : ∀ x w w', (fn x).exec w ≠ some (.error .stopIteration, w')) :
    traverse (fun x => do let r ← fn x; pure (.res r)) ⟨xs⟩ = (do
      match ← Traverse.traverse fn ⟨xs⟩ with
      | .ok b => pure (.res (.ok (.val (.block b))))
      | .error e => pure (.res (.error e))) := by
  have one : ∀ x, attempt (do let r ← fn x; pure (Answer.res r)) = (do let r ← fn x; pure (meaning (.res r))) := by
    intro x
    apply PyD.ext
    intro w
    have e3 : (attempt (do let r ← fn x; pure (Answer.res r))).exec w = match (do let r ← fn x; pure (Answer.res r) : PyD σ (Answer β ε)).exec w with
      | none => none
      | some (.ok a, w') => some (.ok (meaning a), w')
      | some (.error .effectError, w') => some (.ok (.error .nothing), w')
      | some (.error .stopIteration, w') => some (.error (.failwith "generator raised StopIteration"), w')
      | some (.error e, w') => some (.error e, w') := rfl
    rw [e3, exec_bind, exec_bind]
    rcases hf : (fn x).exec w with _ | ⟨e | r, w1⟩
    · rfl
    · cases e <;> first | rfl | exact absurd hf (he _ _ _) | exact absurd hf (hs _ _ _)
    · rfl
  have all : attempts (fun x => do let r ← fn x; pure (Answer.res r)) xs =
      (do let rs ← Spec.visitBackwards fn xs; pure (rs.map fun r => meaning (.res r))) := by
    induction xs with
    | nil => rfl
    | cons x xs ih =>
      rw [attempts, ih, Spec.visitBackwards, one]
      simp only [bind_assoc, pure_bind, List.map_cons]
  have first : ∀ rs : List (Res (Obj β) ε), returned (firstFailure (rs.map fun r => meaning (.res r))) =
      (match Spec.firstError rs with
      | .ok vs => .res (.ok (.val (.block ⟨vs⟩)))
      | .error e => .res (.error e)) := by
    intro rs
    have : firstFailure (rs.map fun r => meaning (.res r)) = (match Spec.firstError rs with
      | .ok vs => .ok vs
      | .error e => .error (.error e)) := by
      induction rs with
      | nil => rfl
      | cons r rs ih =>
        rcases r with v | e
        · rw [List.map_cons, show meaning (.res (.ok v) : Answer β ε) = .ok v from rfl, firstFailure, ih, Spec.firstError]
          cases Spec.firstError rs <;> rfl
        · rfl
    rw [this]
    cases Spec.firstError rs <;> rfl
  rw [C150_traverse, all, Lemmas.traverse_eq fn he hs]
  simp only [bind_assoc, pure_bind]
  refine bind_congr fun rs => ?_
  rw [first]
  cases Spec.firstError rs <;> rfl

/-- the last failure to be met, that of the first failing element, wins; a raised `Nothing` ends up as the value -/
example : (traverse anyAnswer ⟨[9, 0, 2, 8]⟩).exec [] = some (.ok (.opt none), [8, 2, 0, 9]) := by rw [C150_traverse]; rfl

example : (traverse anyAnswer ⟨[9, 1, 0, 8]⟩).exec [] = some (.ok (.res (.error 1)), [8, 0, 1, 9]) := by rw [C150_traverse]; rfl

example : (traverse anyAnswer ⟨[9, 3]⟩).exec [] = some (.ok (.res (.ok (.val (.block ⟨[.val 9, .val 3]⟩)))), [3, 9]) := by
  rw [C150_traverse]; rfl

/-- a `StopIteration` is a `RuntimeError` afterwards, and the elements before it are not visited -/
example : (traverse anyAnswer ⟨[9, 4, 2]⟩).exec [] = some (.error (.failwith "generator raised StopIteration"), [2, 4]) := by
  rw [C150_traverse]; rfl

/-- the hypothesis of `C150_result_partial` -/
example : ∀ x ∈ [9, 1, 2, 3], ∀ v v', (anyAnswer x).exec v ≠ some (.ok (.opt none), v') ∧
    (anyAnswer x).exec v ≠ some (.ok (.raised .nothing), v') ∧ (anyAnswer x).exec v ≠ some (.error .effectError, v') := by
  intro x hx v v'
  simp only [List.mem_cons, List.not_mem_nil, or_false] at hx
  rcases hx with rfl | rfl | rfl | rfl <;> exact ⟨(fun h => nomatch h), (fun h => nomatch h), (fun h => nomatch h)⟩

end Expression.Props
