import Verif.Lemmas.Aio

/-!
# C83-C86: `from_continuations`, `start`, `start_immediate`, `run_synchronously`
-/

namespace Expression.Props

open Aio Spec Lemmas

variable {V : Type}

/-! ## C83 the first continuation called decides -/

/-- Whatever the callback calls, at once or later, in whatever order and how often: the first call decides what the awaitable
ends with, and the others do nothing. -/
theorem C83_first_call_decides (now later : List (Call V)) :
    fromContinuations now none later = .ok (firstOutcome (now ++ later)) := by
  rw [← calls_first, List.foldl_append]
  rfl

/-- A callback that raises makes `from_continuations` raise the same, whatever it called before. -/
theorem C83_callback_raises (now later : List (Call V)) (e : PyErr) : fromContinuations now (some e) later = .error e := rfl

example : fromContinuations (V := Nat) [.error (.user 1), .done 2] none [.cancel] = .ok (.exception (.user 1)) := rfl

/-! ## C84 references to started tasks -/

/-- The full property: exactly the tasks that have not ended are referred to. -/
def C84_full_statement (V : Type) : Prop :=
  ∀ (es : List (Event V)) (i : Nat), i ∈ (run es).running ↔ i < (started es).length ∧ outcomeOf (run es) i = none

/-- It is false: `remove` comes after `await`, so it does not take place when the computation raises or is cancelled; the
reference to such a task is never dropped. -/
theorem C84_full_statement_false : ¬ C84_full_statement Nat := fun h =>
  absurd ((h [.start (.fail (.user 1)) .without, .resume 0] 0).1 (by decide)).2 (by decide)

/-- Proved, for every history of starts, cancellations and steps of the loop: a reference is kept to every task that has not
ended (so the loop's weak references never lose one), none is kept to one that returned, and each is kept once.  A task that
failed or was cancelled is referred to for ever. -/
theorem C84_references_partial (es : List (Event V)) :
    (run es).running.Nodup ∧
    ∀ i, i ∈ (run es).running ↔ i < (started es).length ∧ ∀ v, outcomeOf (run es) i ≠ some (.returned v) := by
  have h := (inv_run es 0).1
  refine ⟨h.nodup, fun i => (h.running i).trans ?_⟩
  rw [← h.len]
  unfold outcomeOf
  constructor
  · rintro ⟨t, ht, hv⟩
    exact ⟨(List.getElem?_eq_some_iff.1 ht).1, by rw [ht]; exact hv⟩
  · rintro ⟨hi, hv⟩
    refine ⟨_, List.getElem?_eq_getElem hi, ?_⟩
    rw [List.getElem?_eq_getElem hi] at hv
    exact hv

/-- two computations of which the second has returned and the first waits -/
example : (run [.start (.step 1 (.ret 5) .cancelled) .without, .start (.ret 7) (.of 0), .resume 1, .resume 0]).running = [0] := rfl

/-! ## C85 what a started computation does -/

/-- For every history of starts, cancellations of any sources and steps of the loop, and every computation started in it: its effects
and its outcome are those of running it by itself, with `CancelledError` thrown in exactly where the loop resumes it for the first
time after its source was cancelled while the computation was registered with its token (`flagsOf`). Other computations have no
influence on it, and nothing of it runs twice. -/
theorem C85_runs_alone (es : List (Event V)) (i : Nat) (c : Comp V) (token : Tok)
    (h : (started es)[i]? = some (c, token)) :
    (effectsOf i (run es).log, outcomeOf (run es) i) = runAlone c (flagsOf i es) := by
  have hi := inv_run es i
  have hl : i < (run es).tasks.length := by
    rw [hi.1.len]
    exact (List.getElem?_eq_some_iff.1 h).1
  have ht := List.getElem?_eq_getElem hl
  have := (hi.2.task _ c token ht h).alone
  unfold outcomeOf
  rw [ht]
  exact this

/-- `CancelledError` is thrown into a computation at most once, and only if it was started with the token of a source that was
cancelled later. -/
theorem C85_cancelled_at_most_once (es : List (Event V)) (i : Nat) :
    (flagsOf i es).countP id ≤ 1 ∧
    (true ∈ flagsOf i es → ∃ pre source post, es = pre ++ .cancel source :: post ∧ ∃ c, (started pre)[i]? = some (c, .of source)) :=
  watch_once es i

/-- Cancelling other sources than that of its token has no influence on a computation: without these cancellations its effects and
its outcome would have been the same. -/
theorem C85_other_sources (es : List (Event V)) (i source : Nat) (c : Comp V) (h : (started es)[i]? = some (c, .of source)) :
    let es' := es.filter (fun e => match e with | .cancel s => s == source | _ => true)
    effectsOf i (run es').log = effectsOf i (run es).log ∧ outcomeOf (run es') i = outcomeOf (run es) i := by
  have h' : (started (onlySource source es))[i]? = some (c, .of source) := by rw [started_onlySource]; exact h
  have hf : flagsOf i es = flagsOf i (onlySource source es) := by
    refine watch_only source i es [] {} {} rfl ⟨rfl, .rfl, rfl, .inl rfl, rfl, rfl⟩ ?_
    intro c' b hb
    rw [List.nil_append, h] at hb
    cases hb
    rfl
  have := (C85_runs_alone _ i c _ h').trans ((congrArg (runAlone c) hf.symm).trans (C85_runs_alone _ i c _ h).symm)
  exact Prod.mk.inj this

/-- A computation that was started without the token of a source is never cancelled: its effects and outcome depend on nothing but
how many times the loop ran it. -/
theorem C85_without_token (es : List (Event V)) (i : Nat) (c : Comp V) (token : Tok) (h : (started es)[i]? = some (c, token))
    (ht : ∀ source, token ≠ .of source) :
    (effectsOf i (run es).log, outcomeOf (run es) i) = runAlone c (List.replicate (flagsOf i es).length false) := by
  rw [C85_runs_alone es i c token h]
  congr 1
  refine List.eq_replicate_iff.2 ⟨rfl, fun b hb => ?_⟩
  cases b with
  | false => rfl
  | true =>
    obtain ⟨pre, k, post, rfl, c', hc⟩ := (watch_once es i).2 hb
    rw [started_append, List.getElem?_append_left (List.getElem?_eq_some_iff.1 hc).1, hc] at h
    cases h
    exact absurd rfl (ht k)

/-- Starting runs nothing: no effect takes place before `start` returns. -/
theorem C85_start_runs_nothing (es : List (Event V)) (c : Comp V) (token : Tok) :
    (run (es ++ [.start c token])).log = (run es).log := by
  rw [run, List.foldl_append]
  show (start (run es) c token).2.log = _
  rw [start_eq]

/-- a computation that is cancelled at its second await, and cleans up (effect 9) -/
example :
    let c : Comp Nat := .step 1 (.step 2 (.ret 5) (.step 9 .cancelled .cancelled)) .cancelled
    let es : List (Event Nat) := [.start c (.of 7), .resume 0, .start (.ret 3) (.of 7), .start (.ret 4) (.of 8), .cancel 9, .resume 0, .cancel 7,
      .resume 1, .resume 2, .resume 0, .resume 0]
    flagsOf 0 es = [false, false, true, false] ∧ effectsOf 0 (run es).log = [1, 2, 9] ∧ outcomeOf (run es) 2 = some (.returned 4) ∧
      outcomeOf (run es) 0 = some .cancelled ∧ outcomeOf (run es) 1 = some .cancelled ∧ effectsOf 1 (run es).log = [] := by
  decide

/-! ## C86 failing to start, starting at once, waiting for the result -/

/-- The full property: a call of `start` that raises has not started the computation. -/
def C86_full_statement (V : Type) : Prop :=
  ∀ (es : List (Event V)) (c : Comp V) (token : Tok) (e : PyErr), (start (run es) c token).1 = .error e →
    ∀ fs : List (Event V), effectsOf (started es).length (run (es ++ .start c token :: fs)).log = []

/-- It is false: with the token of a source that was cancelled already, `start` raises after the task was created; the loop
then runs the whole computation, which can no longer be cancelled. -/
theorem C86_full_statement_false : ¬ C86_full_statement Nat := fun h =>
  absurd (h [.cancel 0] (.step 1 (.ret 2) .cancelled) (.of 0) .objectDisposed rfl [.resume 0]) (by decide)

/-- The same for every computation started with `CancellationToken.none()`, the token that is meant for "never cancelled": `start`
raises, and the computation runs, with the effects and the outcome it has by itself. -/
theorem C86_none_token (es fs : List (Event V)) (c : Comp V) :
    (start (run es) c .never).1 = .error .objectDisposed ∧
    (effectsOf (started es).length (run (es ++ .start c .never :: fs)).log,
      outcomeOf (run (es ++ .start c .never :: fs)) (started es).length) = runAlone c (List.replicate
        (fs.countP (fun e => match e with | .resume i => i == (started es).length | _ => false)) false) := by
  refine ⟨rfl, ?_⟩
  rw [C85_without_token _ _ c .never (by simp [started_append, started]) (by simp), flags_count_new es fs c .never]
  rfl

/-- Proved: `start` raises exactly when it is given the token of a source that was cancelled before, or `CancellationToken.none()`,
and then always `ObjectDisposedException`; otherwise it returns `None`. -/
theorem C86_start_raises_partial (es : List (Event V)) (c : Comp V) (token : Tok) :
    ((token = .never ∨ ∃ source, token = .of source ∧ .cancel source ∈ es) → (start (run es) c token).1 = .error .objectDisposed) ∧
    (¬ (token = .never ∨ ∃ source, token = .of source ∧ .cancel source ∈ es) → (start (run es) c token).1 = .ok ()) := by
  cases token with
  | without => simp [start]
  | never => simp [start]
  | of k =>
    have hk := cancelled_iff es k
    constructor
    · rintro (h | ⟨j, h, hj⟩)
      · cases h
      · cases h
        simp [start, hk.2 hj]
    · intro h
      have : k ∉ (run es).cancelled := fun hm => h (.inr ⟨k, rfl, hk.1 hm⟩)
      simp [start, this]

/-- The full property of the name and the docstring: `start_immediate` runs the computation up to its first await before it
returns. -/
def C86_immediate_statement (V : Type) : Prop :=
  ∀ (es : List (Event V)) (c : Comp V), effectsOf (started es).length (run (es ++ [.start c .without])).log = (follow c []).1

/-- It is false: like `start` it only schedules the task. -/
theorem C86_immediate_statement_false : ¬ C86_immediate_statement Nat := fun h =>
  absurd (h [] (.step 1 (.ret 2) .cancelled)) (by decide)

/-- `run_synchronously` gives what the computation ends with by itself, without cancellations, once enough of its awaits are
resumed. -/
theorem C86_run_synchronously (c : Comp V) :
    ∃ n, match (follow c (List.replicate n false)).2 with
      | some (.returned v) => runSynchronously c = .ok v
      | some (.failed e) => runSynchronously c = .error e
      | some .cancelled => runSynchronously c = .error cancelledError
      | none => False := by
  induction c with
  | ret v => exact ⟨0, rfl⟩
  | fail e => exact ⟨0, rfl⟩
  | cancelled => exact ⟨0, rfl⟩
  | step e next onCancel ih _ =>
    obtain ⟨n, hn⟩ := ih
    refine ⟨n + 1, ?_⟩
    rw [List.replicate_succ]
    simp only [follow, Bool.false_eq_true, if_false, runSynchronously]
    exact hn

/-- an awaitable with two awaits -/
example : runSynchronously (.step 1 (.step 2 (.ret 5) .cancelled) (.ret 0)) = .ok 5 := rfl

end Expression.Props
