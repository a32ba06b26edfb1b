import Verif.Lemmas.AsyncShared

/-! # Property C136: several tasks that go through one asynchronous sequence -/

namespace Expression.Props

open Expression AsyncSeq AsyncShared Spec Threads Iterable PyD

variable {α β C σ : Type}

/-- The full property, for `map` over a source that neither fails nor ends: whatever the askers do (they may also be cancelled while they wait),
who asks gets the result for an element or, as long as the source delivers none, waits; or is cancelled. -/
def C136_full_statement : Prop :=
  ∀ (f : Nat → Nat) (es : List (Event Nat)) (s : State Unit Nat), (∀ e, .failed e ∉ es) → .exhausted ∉ es →
    run (step (mapAct (fun x => .ok (f x)))) (start ()) es = some s →
      ∀ who o, (who, o) ∈ s.log → (∃ y, o = .value y) ∨ o = .raised cancelledError

/-- The code does not do this: if a task is cancelled while it waits, the sequence has ended for all the others, silently. -/
theorem C136_full_statement_false : ¬ C136_full_statement := by
  intro h
  have := h id [.ask 0, .cancel, .ask 1] _ (by simp) (by simp) rfl 1 .ended (by simp [State.answer])
  rcases this with ⟨y, hy⟩ | hy
  · cases hy
  · cases hy

/-- **C136 (nothing is lost or duplicated).** For every operation, all askers and every order of events: the results handed out, in order and whoever
got them, are those of the loop over the elements that the source delivered; and every request comes to exactly one outcome or is being
worked on, one at a time. -/
theorem C136_shared (body : C → α → Except PyErr (Act C β)) (c0 : C) (es : List (Event α)) (s : State C β)
    (h : run (step body) (start c0) es = some s) :
    valuesIn s.log = (loopOver body c0 (elementsOf es)).1 ∧
    ∀ who, requestsOf who es = answersTo who s.log + waiting who s.phase :=
  ⟨(inv_run h).values, (inv_run h).counts⟩

/-- The operations make generators with these bodies … -/
theorem C136_operations (f : α → Except PyErr β) (p : α → Except PyErr Bool) (g : α → Except PyErr (Option β)) (n : Int) (src : Iterable σ α S) :
    AsyncSeq.map (fun x => ofPy (Py.ofExcept (f x))) src = generator () (fun c x => ofPy (Py.ofExcept (mapAct f c x))) src ∧
    AsyncSeq.filter (fun x => ofPy (Py.ofExcept (p x))) src = generator () (fun c x => ofPy (Py.ofExcept (filterAct p c x))) src ∧
    AsyncSeq.choose (fun x => ofPy (Py.ofExcept (g x))) src = generator () (fun c x => ofPy (Py.ofExcept (chooseAct g c x))) src ∧
    AsyncSeq.take n src = generator 0 (fun c x => ofPy (Py.ofExcept (takeAct n c x))) src ∧
    AsyncSeq.skip n src = generator 0 (fun c x => ofPy (Py.ofExcept (skipAct n c x))) src ∧
    AsyncSeq.tail src = generator true (fun c x => ofPy (Py.ofExcept (tailAct c x))) src := by
  refine ⟨?_, ?_, ?_, rfl, rfl, rfl⟩
  · refine congrArg (generator () · src) (funext fun _ => funext fun x => ?_)
    rw [mapAct, ofExcept_bind]; rfl
  · refine congrArg (generator () · src) (funext fun _ => funext fun x => ?_)
    rw [filterAct, ofExcept_bind]
    refine bind_congr fun b => ?_
    cases b <;> rfl
  · refine congrArg (generator () · src) (funext fun _ => funext fun x => ?_)
    rw [chooseAct, ofExcept_bind]
    refine bind_congr fun o => ?_
    cases o <;> rfl

/-- … and what their loops give for the elements delivered so far is the list operation. -/
theorem C136_list_operations (f : α → β) (p : α → Bool) (g : α → Option β) (n : Int) (xs : List α) :
    (loopOver (mapAct (fun x => .ok (f x))) () xs).1 = xs.map f ∧
    (loopOver (filterAct (fun x => .ok (p x))) () xs).1 = xs.filter p ∧
    (loopOver (chooseAct (fun x => .ok (g x))) () xs).1 = xs.filterMap g ∧
    (loopOver (takeAct n) 0 xs).1 = xs.take n.toNat ∧
    (loopOver (skipAct n) 0 xs).1 = xs.drop n.toNat ∧
    (loopOver tailAct true xs).1 = xs.tail := by
  refine ⟨by rw [loopOver_map], by rw [loopOver_filter], by rw [loopOver_choose], ?_, ?_, loopOver_tail xs⟩
  · simpa using loopOver_take n 0 xs
  · simpa using loopOver_skip n 0 xs

/-- With one asker who asks again and again this is `[x async for x in xs]`: the results of the loop, or what it raises (an exception other than
`StopIteration`, which `Model/AsyncSeq.lean` leaves out). -/
theorem C136_alone (body : C → α → Except PyErr (Act C β)) (_ : ∀ c x, body c x ≠ .error .stopIteration) (c0 : C) (xs : List α) :
    (generator c0 (fun c x => ofPy (Py.ofExcept (body c x))) (ofList xs : Iterable σ α _)).toList =
      match (loopOver body c0 xs).2 with
      | .raised e => raise e
      | _ => pure (loopOver body c0 xs).1 := toList_alone body c0 xs

/-- **C136 (exceptions are not lost).** What a callback or the source raises, somebody is told: the one who was waiting; and so is a task that is cancelled. -/
theorem C136_told (body : C → α → Except PyErr (Act C β)) (c0 : C) (es : List (Event α)) (s : State C β)
    (h : run (step body) (start c0) es = some s) :
    (∀ e, .failed e ∈ es ∨ (loopOver body c0 (elementsOf es)).2 = .raised e → ∃ who, (who, .raised (leaving e)) ∈ s.log) ∧
    (.cancel ∈ es → ∃ who, (who, .raised cancelledError) ∈ s.log) :=
  ⟨fun e he => he.elim ((told_run h).source e) ((told_run h).callback e), (told_run h).cancelled⟩

/-- **C136 (who is turned away).** A request made while an earlier one is worked on raises `RuntimeError`, and nothing else happens: no result is lost. -/
theorem C136_turned_away (body : C → α → Except PyErr (Act C β)) (s : State C β) (who w : Nat) (c : C) (h : s.phase = .busy w c) :
    step body s (.ask who) = some { s with log := s.log ++ [(who, .raised alreadyRunning)] } := by
  obtain ⟨ph, log⟩ := s
  cases h
  rfl

/-- **C136 (the end is the end for all).** After the source has been exhausted or has raised, after a callback has raised or the loop was left (`take`), and after a waiting
task was cancelled, everybody who asks is told that the sequence has ended, for ever; nothing is asked of the source any more. -/
theorem C136_over (body : C → α → Except PyErr (Act C β)) (c0 : C) (es fs : List (Event α)) (s s' : State C β)
    (h : run (step body) (start c0) es = some s) (ev : Event α) (s1 : State C β) (he : step body s ev = some s1)
    (hend : ev = .exhausted ∨ (∃ e, ev = .failed e) ∨ ev = .cancel ∨
      ∃ x c, ev = .element x ∧ (loopOver body c0 (elementsOf es)).2 = .goesOn c ∧ ((∃ e, body c x = .error e) ∨ body c x = .ok .stop))
    (hf : run (step body) s1 fs = some s') :
    (∀ e ∈ fs, ∃ who, e = .ask who) ∧ s'.log = s1.log ++ fs.filterMap (fun e => match e with
      | .ask who => some (who, .ended)
      | _ => none) :=
  let r := over_run (ends h he hend) fs hf
  ⟨r.2.2, r.2.1⟩

/-- **C136 (partial).** If no waiting task is cancelled, the source neither ends nor raises, and the loop over what it delivered goes on, the sequence is
alive: who asked got a result, was turned away for a moment, or is the one being served. -/
theorem C136_alive_partial (body : C → α → Except PyErr (Act C β)) (c0 : C) (es : List (Event α)) (s : State C β)
    (h : run (step body) (start c0) es = some s) (hc : .cancel ∉ es) (hx : .exhausted ∉ es) (hf : ∀ e, .failed e ∉ es)
    (hg : ∃ c, (loopOver body c0 (elementsOf es)).2 = .goesOn c) :
    s.phase ≠ .over ∧ ∀ who o, (who, o) ∈ s.log → (∃ y, o = .value y) ∨ o = .raised alreadyRunning :=
  alive_run h hc hx hf hg

/-! ## Cases -/

/-- three tasks share `map (+1)`: task 1 asks too early, tasks 0, 2 and 1 get one element each, in order -/
example : run (step (mapAct (fun x => .ok (x + 1)))) (start ()) [.ask 0, .ask 1, .element 10, .ask 2, .element 20, .ask 1, .element 30] =
    some (⟨.idle (), [(1, .raised alreadyRunning), (0, .value 11), (2, .value 21), (1, .value 31)]⟩ : State Unit Nat) := rfl

/-- `filter` waits on for the same asker; then it is cancelled, and the others find the sequence at its end -/
example : run (step (filterAct (fun x => .ok (x % 2 == 0)))) (start ()) [.ask 0, .element 1, .element 2, .ask 1, .element 3, .cancel, .ask 0, .ask 2] =
    some (⟨.over, [(0, .value 2), (1, .raised cancelledError), (0, .ended), (2, .ended)]⟩ : State Unit Nat) := rfl

/-- `take 1` fetches a second element and drops it: whoever asks next finds the end -/
example : run (step (takeAct 1)) (start 0) [.ask 0, .element 7, .ask 1, .element 8, .ask 2] =
    some (⟨.over, [(0, .value 7), (1, .ended), (2, .ended)]⟩ : State Nat Nat) := rfl

/-- a callback that raises `StopIteration`: `RuntimeError` for the one who waits, the end for the others -/
example : run (step (mapAct (fun x => if x = 2 then .error .stopIteration else .ok x))) (start ()) [.ask 0, .element 1, .ask 0, .element 2, .ask 1] =
    some (⟨.over, [(0, .value 1), (0, .raised (.failwith "async generator raised StopIteration")), (1, .ended)]⟩ : State Unit Nat) := rfl

/-- the hypotheses of `C136_alive_partial` and `C136_over` -/
example : .cancel ∉ [Event.ask 0, .element 1, .ask 1] ∧ (∃ c, (loopOver (mapAct (fun x => .ok (x + 1))) () (elementsOf [Event.ask 0, .element 1, .ask 1])).2 =
    .goesOn c) ∧ (step (mapAct (fun x => .ok (x + 1))) ⟨.busy 1 (), []⟩ (.cancel : Event Nat)).isSome := ⟨by simp, ⟨(), rfl⟩, rfl⟩

end Expression.Props
