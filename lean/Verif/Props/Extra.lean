import Verif.Lemmas.Functions

/-! # C43-C45: traverse, pipelines, catch -/

namespace Expression.Props

open Spec Lemmas PyD

variable {σ α β ε : Type}

/-! ## C43 traverse

The claim says that `fn` is called in order and not past the first error.  The code calls it on *every* element, the *last* one first. -/

/-- the claim: in order, and not past the first error -/
def C43_full_statement : Prop :=
  ∀ (σ α β ε : Type) (fn : α → PyD σ (Res (Obj β) ε)) (xs : List α),
    (∀ x w w', (fn x).exec w ≠ some (.error .effectError, w')) → (∀ x w w', (fn x).exec w ≠ some (.error .stopIteration, w')) →
    Traverse.traverse fn ⟨xs⟩ = (do let r ← visitForward fn xs; pure (inBlock r))

/-- a function that logs its argument and fails on 1 -/
def logAndFail (n : Nat) : PyD (List Nat) (Res (Obj Nat) Nat) := fun log =>
  some (.ok (if n = 1 then .error n else .ok (.val n)), log ++ [n])

theorem C43_full_statement_false : ¬ C43_full_statement := by
  intro h
  have he : ∀ x w w', (logAndFail x).exec w ≠ some (.error .effectError, w') := by
    intro x w w' h; cases h
  have hs : ∀ x w w', (logAndFail x).exec w ≠ some (.error .stopIteration, w') := by
    intro x w w' h; cases h
  have := h (List Nat) Nat Nat Nat logAndFail [1, 2] he hs
  rw [traverse_eq logAndFail he hs] at this
  have h2 := congrArg (fun p => (PyD.exec p []).map (·.2)) this
  change some [2, 1] = some [1] at h2
  simp at h2

/-- What holds: `fn` is called on every element, the last one first; then the result is `Ok` of all values, or the `Error` of the first element that failed.  An
exception raised by `fn` propagates.  Missing from the claim: the order of the calls, and stopping at the first error. -/
theorem C43_traverse_partial (fn : α → PyD σ (Res (Obj β) ε)) (xs : List α)
    (he : ∀ x w w', (fn x).exec w ≠ some (.error .effectError, w')) (hs : ∀ x w w', (fn x).exec w ≠ some (.error .stopIteration, w')) :
    Traverse.traverse fn ⟨xs⟩ = (do let rs ← visitBackwards fn xs; pure (inBlock (firstError rs))) :=
  traverse_eq fn he hs xs

/-- Without effects the order does not show: the result is as claimed. -/
theorem C43_pure (g : α → Res (Obj β) ε) (xs : List α) :
    Traverse.traverse (σ := σ) (fun x => pure (g x)) ⟨xs⟩ = (do let r ← visitForward (fun x => pure (g x)) xs; pure (inBlock r)) := by
  rw [traverse_eq _ (fun _ _ _ h => by cases h) (fun _ _ _ h => by cases h), visitBackwards_pure, pure_bind]
  have : visitForward (σ := σ) (fun x => pure (g x)) xs = pure (firstError (xs.map g)) := by
    induction xs with
    | nil => rfl
    | cons x xs ih =>
      rw [visitForward, pure_bind, List.map_cons, ih]
      rcases g x with v | e
      · simp only [firstError, pure_bind]
        cases firstError (xs.map g) <;> rfl
      · rfl
  rw [this, pure_bind]

/-- With effects, as long as these do not change the results: the result is that of the claim, whatever the effects. -/
theorem C43_result (fn : α → PyD σ (Res (Obj β) ε)) (g : α → Res (Obj β) ε) (hg : ∀ x w, ∃ w', (fn x).exec w = some (.ok (g x), w')) (xs : List α) (w : σ) :
    ∃ w', (Traverse.traverse fn ⟨xs⟩).exec w = some (.ok (inBlock (firstError (xs.map g))), w') := by
  have he : ∀ x w e w', (fn x).exec w ≠ some (.error e, w') := by
    intro x w e w' h
    obtain ⟨w1, h1⟩ := hg x w
    rw [h1] at h; cases h
  rw [traverse_eq fn (fun x w w' => he x w _ w') (fun x w w' => he x w _ w')]
  have : ∀ w, ∃ w', (visitBackwards fn xs).exec w = some (.ok (xs.map g), w') := by
    intro w
    induction xs with
    | nil => exact ⟨w, rfl⟩
    | cons x xs ih =>
      obtain ⟨w1, h1⟩ := ih
      obtain ⟨w2, h2⟩ := hg x w1
      exact ⟨w2, by rw [visitBackwards, exec_bind, h1]; simp only; rw [exec_bind, h2]; rfl⟩
  obtain ⟨w1, h1⟩ := this w
  exact ⟨w1, by rw [exec_bind, h1]; rfl⟩

/-- All `Ok`: `Ok` of all the values in order. -/
theorem C43_all_ok (g : α → Obj β) (xs : List α) :
    Traverse.traverse (σ := σ) (ε := ε) (fun x => pure (.ok (g x))) ⟨xs⟩ = pure (.ok ⟨xs.map g⟩) := by
  rw [C43_pure]
  suffices h : visitForward (σ := σ) (ε := ε) (fun x => pure (.ok (g x))) xs = pure (.ok (xs.map g)) by rw [h]; rfl
  induction xs with
  | nil => rfl
  | cons x xs ih => rw [visitForward, pure_bind, ih]; rfl

/-- An `Error` with only `Ok`s before it is the result, whatever comes after it. -/
theorem C43_first_error (g : α → Res (Obj β) ε) (xs ys : List α) (x : α) (e : ε) (hxs : ∀ y ∈ xs, ∃ v, g y = .ok v) (hx : g x = .error e) :
    Traverse.traverse (σ := σ) (fun x => pure (g x)) ⟨xs ++ x :: ys⟩ = pure (.error e) := by
  rw [C43_pure]
  suffices h : visitForward (σ := σ) (fun x => pure (g x)) (xs ++ x :: ys) = pure (.error e) by rw [h]; rfl
  induction xs with
  | nil => rw [List.nil_append, visitForward, pure_bind, hx]
  | cons y xs ih =>
    obtain ⟨v, hv⟩ := hxs y (List.mem_cons_self ..)
    rw [List.cons_append, visitForward, pure_bind, hv, ih (fun z hz => hxs z (List.mem_cons_of_mem _ hz))]; rfl

/-- `sequence` collects the results of a block: all values, or the first error. -/
theorem C43_sequence (rs : List (Res (Obj β) ε)) : Traverse.sequence (σ := σ) ⟨rs⟩ = pure (inBlock (firstError rs)) := by
  rw [Traverse.sequence, traverse_eq _ (fun _ _ _ h => by cases h) (fun _ _ _ h => by cases h), visitBackwards_pure, pure_bind, List.map_id']

/-- `sequence` is `traverse` of the identity; `traverse f` of a function without effects is `sequence` after `map f`. -/
theorem C43_traverse_sequence (g : α → Res (Obj β) ε) (xs : List α) :
    Traverse.traverse (σ := σ) (fun x => pure (g x)) ⟨xs⟩ = Traverse.sequence ⟨xs.map g⟩ := by
  rw [C43_sequence, traverse_eq _ (fun _ _ _ h => by cases h) (fun _ _ _ h => by cases h), visitBackwards_pure, pure_bind]

example : (Traverse.traverse logAndFail ⟨[3, 1, 2, 1]⟩).exec [] = some (.ok (.error 1), [1, 2, 1, 3]) := by
  rw [C43_traverse_partial logAndFail _ (fun _ _ _ h => by cases h) (fun _ _ _ h => by cases h)]; rfl

example : (Traverse.traverse logAndFail ⟨[3, 2]⟩).exec [] = some (.ok (.ok ⟨[.val 3, .val 2]⟩), [2, 3]) := by
  rw [C43_traverse_partial logAndFail _ (fun _ _ _ h => by cases h) (fun _ _ _ h => by cases h)]; rfl

/-- the hypothesis of `C43_result` -/
example : ∀ x w, ∃ w', (logAndFail x).exec w = some (.ok (if x = 1 then .error x else .ok (.val x)), w') := fun _ _ => ⟨_, rfl⟩

/-- the hypotheses of `C43_first_error` -/
example : (∀ y ∈ [3, 2], ∃ v, (fun n => if n = 1 then .error n else .ok (.val n) : Nat → Res (Obj Nat) Nat) y = .ok v) := by
  intro y hy
  simp only [List.mem_cons, List.not_mem_nil, or_false] at hy
  rcases hy with rfl | rfl <;> exact ⟨_, rfl⟩

/-! ## C44 pipelines -/

/-- The result pipeline is the railway: left to right on the successive payloads, stopping at the first `Error`; effects, exceptions and divergence included. -/
theorem C44_result (fns : List (α → PyD σ (Res α ε))) (x : α) : Pipeline.resultPipeline fns x = railway fns x := by
  rw [Pipeline.resultPipeline, foldl_pipeline, pure_bind]; rfl

/-- The option pipeline likewise stops at the first `Nothing`. -/
theorem C44_option (fns : List (α → PyD σ (Option α))) (x : α) : Pipeline.optionPipeline fns x = railwayOption fns x := by
  rw [Pipeline.optionPipeline, foldl_optionPipeline, pure_bind]; rfl

/-- The empty pipelines wrap their argument. -/
theorem C44_empty (x : α) : Pipeline.resultPipeline (σ := σ) (ε := ε) [] x = pure (.ok x) ∧ Pipeline.optionPipeline (σ := σ) [] x = pure (some x) := ⟨rfl, rfl⟩

/-- Nothing after a function that gives `Error` is called: the later functions may be replaced by any others. -/
theorem C44_result_stops (fns rest rest' : List (α → PyD σ (Res α ε))) (x : α) (w : σ) (e : ε) (w' : σ)
    (h : (Pipeline.resultPipeline fns x).exec w = some (.ok (.error e), w')) :
    (Pipeline.resultPipeline (fns ++ rest) x).exec w = some (.ok (.error e), w') ∧
      (Pipeline.resultPipeline (fns ++ rest) x).exec w = (Pipeline.resultPipeline (fns ++ rest') x).exec w := by
  have key : ∀ rest, (Pipeline.resultPipeline (fns ++ rest) x).exec w = some (.ok (.error e), w') := by
    intro rest
    rw [Pipeline.resultPipeline, List.foldl_append]
    rw [foldl_pipeline, exec_bind]
    rw [Pipeline.resultPipeline] at h
    rw [h]; rfl
  exact ⟨key rest, by rw [key, key]⟩

/-- Nothing after a function that gives `Nothing` is called. -/
theorem C44_option_stops (fns rest rest' : List (α → PyD σ (Option α))) (x : α) (w : σ) (w' : σ)
    (h : (Pipeline.optionPipeline fns x).exec w = some (.ok none, w')) :
    (Pipeline.optionPipeline (fns ++ rest) x).exec w = some (.ok none, w') ∧
      (Pipeline.optionPipeline (fns ++ rest) x).exec w = (Pipeline.optionPipeline (fns ++ rest') x).exec w := by
  have key : ∀ rest, (Pipeline.optionPipeline (fns ++ rest) x).exec w = some (.ok none, w') := by
    intro rest
    rw [Pipeline.optionPipeline, List.foldl_append]
    rw [foldl_optionPipeline, exec_bind]
    rw [Pipeline.optionPipeline] at h
    rw [h]; rfl
  exact ⟨key rest, by rw [key, key]⟩

/-- A pipeline of a concatenation is one pipeline bound to the other. -/
theorem C44_append (fns gns : List (α → PyD σ (Res α ε))) (x : α) :
    Pipeline.resultPipeline (fns ++ gns) x = (do Res.bind (← Pipeline.resultPipeline fns x) (Pipeline.resultPipeline gns)) := by
  rw [Pipeline.resultPipeline, List.foldl_append, foldl_pipeline]
  refine bind_congr fun r => ?_
  rcases r with v | e
  · exact (C44_result gns v).symm
  · rfl

/-- The same for options. -/
theorem C44_append_option (fns gns : List (α → PyD σ (Option α))) (x : α) :
    Pipeline.optionPipeline (fns ++ gns) x = (do Opt.bind (← Pipeline.optionPipeline fns x) (Pipeline.optionPipeline gns)) := by
  rw [Pipeline.optionPipeline, List.foldl_append, foldl_optionPipeline]
  refine bind_congr fun r => ?_
  rcases r with _ | v
  · rfl
  · exact (C44_option gns v).symm

/-- logs and adds one, failing at 3 -/
def logUpTo3 (n : Nat) : PyD (List Nat) (Res Nat String) := fun log => some (.ok (if n = 3 then .error "three" else .ok (n + 1)), log ++ [n])

example : (Pipeline.resultPipeline [logUpTo3, logUpTo3, logUpTo3, logUpTo3] 2).exec [] = some (.ok (.error "three"), [2, 3]) := rfl
example : (Pipeline.resultPipeline [logUpTo3, logUpTo3] 0).exec [] = some (.ok (.ok 2), [0, 1]) := rfl

/-! ## C45 catch -/

/-- An exception of the class is returned as an `Error`, with the effects up to it. -/
theorem C45_caught (exception : PyErr → Bool) (fn : PyD σ (Catch.Out α)) (w w' : σ) (e : PyErr) (h : fn.exec w = some (.error e, w')) (he : exception e = true) :
    (Catch.catch_ exception fn).exec w = some (.ok (.error e), w') := by
  change (match fn.exec w with | none => none | some (.error e, w') => _ | some (.ok (.result r), w') => _ | some (.ok (.plain v), w') => _) = _
  rw [h]; simp [he]

/-- Any other exception propagates. -/
theorem C45_propagates (exception : PyErr → Bool) (fn : PyD σ (Catch.Out α)) (w w' : σ) (e : PyErr) (h : fn.exec w = some (.error e, w')) (he : exception e = false) :
    (Catch.catch_ exception fn).exec w = some (.error e, w') := by
  change (match fn.exec w with | none => none | some (.error e, w') => _ | some (.ok (.result r), w') => _ | some (.ok (.plain v), w') => _) = _
  rw [h]; simp [he]

/-- A plain value is wrapped in `Ok`. -/
theorem C45_plain (exception : PyErr → Bool) (fn : PyD σ (Catch.Out α)) (w w' : σ) (v : α) (h : fn.exec w = some (.ok (.plain v), w')) :
    (Catch.catch_ exception fn).exec w = some (.ok (.ok v), w') := by
  change (match fn.exec w with | none => none | some (.error e, w') => _ | some (.ok (.result r), w') => _ | some (.ok (.plain v), w') => _) = _
  rw [h]

/-- A `Result` is returned as it is. -/
theorem C45_result (exception : PyErr → Bool) (fn : PyD σ (Catch.Out α)) (w w' : σ) (r : Res α PyErr) (h : fn.exec w = some (.ok (.result r), w')) :
    (Catch.catch_ exception fn).exec w = some (.ok r, w') := by
  change (match fn.exec w with | none => none | some (.error e, w') => _ | some (.ok (.result r), w') => _ | some (.ok (.plain v), w') => _) = _
  rw [h]

/-- The decorated function returns or raises exactly when the function does; in particular it adds no divergence and hides none. -/
theorem C45_diverges (exception : PyErr → Bool) (fn : PyD σ (Catch.Out α)) (w : σ) : (Catch.catch_ exception fn).exec w = none ↔ fn.exec w = none := by
  change (match fn.exec w with | none => none | some (.error e, w') => _ | some (.ok (.result r), w') => _ | some (.ok (.plain v), w') => _) = none ↔ _
  rcases fn.exec w with _ | ⟨e | (v | r), w'⟩
  · simp
  · simp only [reduceCtorEq, iff_false]; split <;> simp
  · simp
  · simp

/-- No exception of the class ever leaves the decorated function. -/
theorem C45_none_escapes (exception : PyErr → Bool) (fn : PyD σ (Catch.Out α)) (w w' : σ) (e : PyErr) (he : exception e = true) :
    (Catch.catch_ exception fn).exec w ≠ some (.error e, w') := by
  intro h
  rcases hf : fn.exec w with _ | ⟨e' | (v | r), w1⟩
  · rw [(C45_diverges exception fn w).2 hf] at h; cases h
  · by_cases h' : exception e' = true
    · rw [C45_caught exception fn w w1 e' hf h'] at h; cases h
    · rw [C45_propagates exception fn w w1 e' hf (by simpa using h')] at h
      cases h; exact h' he
  · rw [C45_plain exception fn w w1 v hf] at h; cases h
  · rw [C45_result exception fn w w1 r hf] at h; cases h

/-- Two decorators, one upon the other, catch what either of them catches. -/
theorem C45_nested (p q : PyErr → Bool) (fn : PyD σ (Catch.Out α)) :
    Catch.catch_ p (do let r ← Catch.catch_ q fn; pure (.result r)) = Catch.catch_ (fun e => p e || q e) fn := by
  apply PyD.ext
  intro w
  rcases hf : fn.exec w with _ | ⟨e | (v | r), w1⟩
  · rw [(C45_diverges _ fn w).2 hf, (C45_diverges ..)]
    rw [exec_bind, (C45_diverges q fn w).2 hf]
  · cases hq : q e
    · cases hp : p e
      · rw [C45_propagates _ fn w w1 e hf (by simp [hp, hq]), C45_propagates p _ w w1 e _ hp]
        rw [exec_bind, C45_propagates q fn w w1 e hf hq]
      · rw [C45_caught _ fn w w1 e hf (by simp [hp]), C45_caught p _ w w1 e _ hp]
        rw [exec_bind, C45_propagates q fn w w1 e hf hq]
    · rw [C45_caught _ fn w w1 e hf (by simp [hq])]
      refine C45_result p _ w w1 (.error e) ?_
      rw [exec_bind, C45_caught q fn w w1 e hf hq]; rfl
  · rw [C45_plain _ fn w w1 v hf]
    refine C45_result p _ w w1 (.ok v) ?_
    rw [exec_bind, C45_plain q fn w w1 v hf]; rfl
  · rw [C45_result _ fn w w1 r hf]
    refine C45_result p _ w w1 r ?_
    rw [exec_bind, C45_result q fn w w1 r hf]; rfl

/-- a function that logs and raises `KeyError` -/
def logAndRaise : PyD (List Nat) (Catch.Out Nat) := fun log => some (.error (.keyError "k"), log ++ [7])

example : (Catch.catch_ (fun e => match e with | .keyError _ => true | _ => false) logAndRaise).exec [] =
    some (.ok (.error (.keyError "k")), [7]) := C45_caught _ _ _ _ _ rfl rfl
example : (Catch.catch_ (fun e => match e with | .valueError _ => true | _ => false) logAndRaise).exec [] =
    some (.error (.keyError "k"), [7]) := C45_propagates _ _ _ _ _ rfl rfl

end Expression.Props
