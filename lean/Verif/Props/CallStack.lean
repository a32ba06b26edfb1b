import Verif.Lemmas.CallStack
import Verif.Props.Extra

/-! # C141: composition, effect blocks, traversal and pipelines on a bounded stack -/

namespace Expression.Props

open Expression Spec Lemmas

variable {σ α β ε S : Type}

/-- `compose(f1, ..., fn)(x)`: with two free frames or more it is the composition of the functions, each called with two frames less; with fewer it
raises `RecursionError` without calling any of them. -/
theorem C141_compose (fns : List (FrameFn σ α α)) (free : Nat) (x : α) :
    CallStack.compose fns free x =
      if free = 0 ∨ (free = 1 ∧ fns ≠ []) then PyD.raise .recursionError else Functions.compose (fns.map (fun f => f (free - 2))) x := by
  by_cases h2 : 2 ≤ free
  · rw [if_neg (by omega), Lemmas.CallStack.compose_two fns free x h2]
  by_cases h0 : free = 0
  · rw [if_pos (Or.inl h0), CallStack.compose, Lemmas.CallStack.frames_few (by omega)]
  have h1 : free = 1 := by omega
  subst h1
  cases fns with
  | nil => rfl
  | cons f fs =>
    rw [if_pos (Or.inr ⟨rfl, by simp⟩)]
    rfl

/-- `pipeline(f1, ..., fn)(x)` of `expression.extra.result`: with `n + 1 + new` free frames or more, where `Ok` needs `1 + new`, it is the railway of
the functions; with fewer it raises `RecursionError` without calling any of them. -/
theorem C141_result_pipeline (new : Nat) (fns : List (FrameFn σ α (Res α ε))) (free : Nat) (x : α) :
    CallStack.resultPipeline new fns free x =
      if free < fns.length + 1 + new then PyD.raise .recursionError else railway (pipelineCalls free fns) x :=
  Lemmas.CallStack.resultPipeline_eq new fns free x

/-- the same for `pipeline` of `expression.extra.option` -/
theorem C141_option_pipeline (new : Nat) (fns : List (FrameFn σ α (Option α))) (free : Nat) (x : α) :
    CallStack.optionPipeline new fns free x =
      if free < fns.length + 1 + new then PyD.raise .recursionError else railwayOption (pipelineCalls free fns) x :=
  Lemmas.CallStack.optionPipeline_eq new fns free x

/-- the parts of the full statement that hold: `compose` and `pipe` of any number of functions, effect blocks with any number of `yield`s, and
`traverse` of any number of elements get along with a number of frames that depends only on what a single function (or one step of the body) needs -/
theorem C141_constant_partial (needs : CallStack.Needs) (m free : Nat) (h : m + needs.new + needs.bind + needs.combine + 13 ≤ free) :
    (∀ {σ α : Type} (fns : List (FrameFn σ α α)), (∀ f ∈ fns, GetsAlong m f) →
      CallStack.compose fns free = Functions.compose (fns.map (fun f => f m)) ∧
      CallStack.pipe fns free = Functions.compose (fns.map (fun f => f m)) ∧
      CallStack.pipeMethod fns free = Functions.compose (fns.map (fun f => f m))) ∧
    (∀ {σ α ε S : Type} (b : Builder α ε) (g : Nat → Gen σ α ε S), GetsAlong m g →
      CallStack.call needs b (g m).start g free = b.call (g m)) ∧
    (∀ {σ α β ε : Type} (fn : FrameFn σ α (Res (Obj β) ε)) (lst : Block α), GetsAlong m fn →
      CallStack.traverse needs fn lst free = Traverse.traverse (fn m) lst) := by
  have hc : ∀ {σ α : Type} (fns : List (FrameFn σ α α)) (k : Nat), (∀ f ∈ fns, GetsAlong m f) → m + 2 ≤ k → ∀ x,
      CallStack.compose fns k x = Functions.compose (fns.map (fun f => f m)) x := by
    intro σ α fns k hf hk x
    rw [Lemmas.CallStack.compose_two fns k x (by omega), Lemmas.CallStack.map_getsAlong hf (by omega)]
  have hp : ∀ {σ α : Type} (fns : List (FrameFn σ α α)) (k : Nat), (∀ f ∈ fns, GetsAlong m f) → m + 3 ≤ k → ∀ x,
      CallStack.pipe fns k x = Functions.compose (fns.map (fun f => f m)) x := by
    intro σ α fns k hf hk x
    rw [CallStack.pipe, Lemmas.CallStack.frames_enough (by omega), Lemmas.CallStack.frames_enough (by omega), pure_bind, hc fns _ hf (by omega)]
  refine ⟨fun fns hf => ⟨?_, ?_, ?_⟩, fun b g hg => ?_, fun fn lst hfn => ?_⟩
  · funext x
    exact hc fns free hf (by omega) x
  · funext x
    exact hp fns free hf (by omega) x
  · funext x
    rw [CallStack.pipeMethod, Lemmas.CallStack.frames_enough (by omega), hp fns _ hf (by omega)]
  · exact Lemmas.CallStack.call_eq needs b hg (by omega)
  · exact Lemmas.CallStack.traverse_eq needs hfn lst (by omega)

/-- what holds of pipelines: they need one frame for every function -/
theorem C141_pipelines_partial (new m free : Nat) :
    (∀ {σ α ε : Type} (fns : List (FrameFn σ α (Res α ε))), (∀ f ∈ fns, GetsAlong m f) → m + fns.length + 1 + new ≤ free →
      CallStack.resultPipeline new fns free = Pipeline.resultPipeline (fns.map (fun f => f m))) ∧
    (∀ {σ α : Type} (fns : List (FrameFn σ α (Option α))), (∀ f ∈ fns, GetsAlong m f) → m + fns.length + 1 + new ≤ free →
      CallStack.optionPipeline new fns free = Pipeline.optionPipeline (fns.map (fun f => f m))) := by
  constructor
  · intro σ α ε fns hf h
    funext x
    rw [C141_result_pipeline, if_neg (by omega), Lemmas.CallStack.pipelineCalls_getsAlong hf (by omega), ← C44_result]
  · intro σ α fns hf h
    funext x
    rw [C141_option_pipeline, if_neg (by omega), Lemmas.CallStack.pipelineCalls_getsAlong hf (by omega), ← C44_option]

/-- Composition, pipes, effect blocks, traversal and pipelines need a number of frames that depends only on what a single function needs. -/
def C141_full_statement : Prop :=
  ∀ (needs : CallStack.Needs) (m : Nat), ∃ enough, ∀ free ≥ enough,
    (∀ {σ α : Type} (fns : List (FrameFn σ α α)), (∀ f ∈ fns, GetsAlong m f) →
      CallStack.compose fns free = Functions.compose (fns.map (fun f => f m)) ∧
      CallStack.pipe fns free = Functions.compose (fns.map (fun f => f m)) ∧
      CallStack.pipeMethod fns free = Functions.compose (fns.map (fun f => f m))) ∧
    (∀ {σ α ε S : Type} (b : Builder α ε) (g : Nat → Gen σ α ε S), GetsAlong m g →
      CallStack.call needs b (g m).start g free = b.call (g m)) ∧
    (∀ {σ α β ε : Type} (fn : FrameFn σ α (Res (Obj β) ε)) (lst : Block α), GetsAlong m fn →
      CallStack.traverse needs fn lst free = Traverse.traverse (fn m) lst) ∧
    (∀ {σ α ε : Type} (fns : List (FrameFn σ α (Res α ε))), (∀ f ∈ fns, GetsAlong m f) →
      CallStack.resultPipeline needs.new fns free = Pipeline.resultPipeline (fns.map (fun f => f m))) ∧
    (∀ {σ α : Type} (fns : List (FrameFn σ α (Option α))), (∀ f ∈ fns, GetsAlong m f) →
      CallStack.optionPipeline needs.new fns free = Pipeline.optionPipeline (fns.map (fun f => f m)))

/-- a function that needs no frame at all to give `Ok(x)` -/
def justOk : FrameFn Unit Nat (Res Nat Unit) := fun _ x => pure (.ok x)

theorem railway_justOk (n x : Nat) : railway (List.replicate n (justOk 0)) x = pure (.ok x) := by
  induction n with
  | zero => rfl
  | succ n ih =>
    rw [List.replicate_succ, railway]
    exact ih

/-- A pipeline of as many functions as there are frames raises `RecursionError`, although its functions need none. -/
theorem C141_full_statement_false : ¬ C141_full_statement := by
  intro h
  obtain ⟨enough, h⟩ := h ⟨0, 0, 0⟩ 0
  have h1 := (h enough (Nat.le_refl _)).2.2.2.1 (List.replicate enough justOk) (fun f hf => by
    rw [List.eq_of_mem_replicate hf]
    exact fun _ _ => rfl)
  have h2 := congrFun h1 7
  rw [C141_result_pipeline, if_pos (by simp), C44_result, List.map_replicate, railway_justOk] at h2
  have h3 := congrFun h2 ()
  cases h3

/-- 5000 functions, on the 1000 frames that CPython allows: the composition works, the pipeline does not -/
example : (CallStack.compose (List.replicate 5000 (fun _ (x : Nat) => (pure x : PyD Unit Nat))) 1000 = Functions.compose (List.replicate 5000 pure)) ∧
    (CallStack.resultPipeline 4 (List.replicate 5000 justOk) 1000 7).exec () = some (.error .recursionError, ()) := by
  constructor
  · have := ((C141_constant_partial ⟨4, 4, 4⟩ 0 1000 (by decide)).1 (List.replicate 5000 (fun _ (x : Nat) => (pure x : PyD Unit Nat)))
      (fun f hf => by rw [List.eq_of_mem_replicate hf]; exact fun _ _ => rfl)).1
    rw [this, List.map_replicate]
  · rw [C141_result_pipeline, if_pos (by rw [List.length_replicate]; omega)]
    rfl

/-- a body that yields for ever, and needs ten frames whenever it is resumed -/
def needsTen : Nat → Gen Unit Nat Unit Nat := fun free =>
  { start := 0, resume := fun n _ => CallStack.frames 10 (fun _ => pure (.yielded (.val n) (n + 1))) free }

example : GetsAlong 10 needsTen := fun free h => by
  unfold needsTen
  congr 1
  funext n _
  rw [Lemmas.CallStack.frames_enough h, Lemmas.CallStack.frames_enough (Nat.le_refl _)]

end Expression.Props
