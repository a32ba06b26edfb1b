import Verif.Lemmas.Interrupt

/-! # C146: disposables and interrupts

`run step init sched = some s`: starting from a new object, the schedule `sched` leads to `s`: any number of threads, any interleaving, any nesting of calls inside
the action, and an exception from outside in any call anywhere. -/

namespace Expression.Props

open Threads Spec Expression.Interrupt Lemmas Lemmas.Interrupt

/-- Whatever the threads do and wherever they are interrupted, the action is started at most once. -/
theorem C146_at_most_once (sched : List (Nat × Act)) (s : State) (h : run step init sched = some s) : timesRun s.obj.log ≤ 1 := by
  rcases (iinv_run h).phase with ⟨hi, _⟩ | ⟨hl, _⟩
  · cases hd : s.obj.isDisposed with
    | false => rw [(hi.fresh hd).1]; omega
    | true => rcases hi.once hd with ⟨h1, _⟩ | ⟨h1, _⟩ <;> omega
  · rw [hl.never]; omega

/-- An interrupt leaves nobody waiting: while a call is open, some open call can go on; when none is, the lock is free. -/
theorem C146_no_deadlock (sched : List (Nat × Act)) (s : State) (h : run step init sched = some s) :
    (∀ t, s.obj.stack t ≠ [] → ∃ u s', s.obj.stack u ≠ [] ∧ step s (u, .act .go) = some s') ∧ ((∀ t, s.obj.stack t = []) → s.obj.owner = none) := by
  refine ⟨fun t ht => ?_, fun hq => ?_⟩
  · obtain ⟨u, o, h1, h2⟩ := can_go (crit_run h) t ht
    exact ⟨u, { s with obj := o }, h1, by simp only [step, h2]; rfl⟩
  · cases ho : s.obj.owner with
    | none => rfl
    | some t =>
      have := (crit_run h t).2 ho
      rw [hq t] at this
      cases this

/-- Once a `dispose` has returned nobody enters any more, whatever is interrupted. -/
theorem C146_enter_raises (sched : List (Nat × Act)) (s : State) (h : run step init sched = some s) (t : Nat) (he : .ended t ∈ s.obj.log)
    (sched' : List (Nat × Act)) (s' : State) (h' : run step s sched' = some s') (u : Nat) (s'' : State) (hs : step s' (u, .act .enter) = some s'') :
    s''.obj.log = s'.obj.log ++ [.refused u] := by
  have hd' : s'.obj.isDisposed = true := run_inv (step := step) (fun s => s.obj.isDisposed = true) disposed_istep (ended_run h t he) sched' h'
  simp only [step, Disposable.step, hd', if_true] at hs
  split at hs
  · cases hs; rfl
  · cases hs

/-- When all calls are over, one of them by returning, the action has been started — exactly once — if and only if no call was interrupted between its marking
the object and its calling the action. -/
theorem C146_exactly_once_partial (sched : List (Nat × Act)) (s : State) (h : run step init sched = some s) (hq : ∀ t, s.obj.stack t = [])
    (hb : ∃ t, .ended t ∈ s.obj.log) : timesRun s.obj.log = 1 ↔ ¬ HitInBetween s.hits := by
  obtain ⟨t, ht⟩ := hb
  rcases (iinv_run h).phase with ⟨hi, hh⟩ | ⟨hl, hh⟩
  · refine ⟨fun _ => hh, fun _ => ?_⟩
    rcases hi.once (hi.ended t ht) with ⟨h1, _⟩ | ⟨_, t', h2, _⟩
    · exact h1
    · rw [hq t'] at h2; cases h2
  · refine ⟨fun h1 => ?_, fun h1 => absurd hh h1⟩
    rw [hl.never] at h1
    cases h1

/-- After an interrupt in between, the action is never started, however often `dispose` is called again. -/
theorem C146_lost (sched : List (Nat × Act)) (s : State) (h : run step init sched = some s) (hh : HitInBetween s.hits)
    (sched' : List (Nat × Act)) (s' : State) (h' : run step s sched' = some s') : timesRun s'.obj.log = 0 := by
  rcases (iinv_run h).phase with ⟨_, hn⟩ | ⟨hl, _⟩
  · exact absurd hh hn
  · exact (lost_run hl h').never

/-- The claim in full: when all calls are over, one of them by returning, the action has been started exactly once. -/
def C146_full_statement : Prop :=
  ∀ (sched : List (Nat × Act)) (s : State), run step init sched = some s → (∀ t, s.obj.stack t = []) → (∃ t, .ended t ∈ s.obj.log) → timesRun s.obj.log = 1

/-- thread 0 is interrupted when it has left the `with` block; thread 1 disposes again, without anything in its way -/
def C146_sched : List (Nat × Act) :=
  [(0, .act .dispose), (0, .act .go), (0, .act .go), (0, .act .go), (0, .act .go), (0, .interrupt),
   (1, .act .dispose), (1, .act .go), (1, .act .go), (1, .act .go), (1, .act .go)]

/-- what it leads to -/
theorem C146_lost_run : ∃ s, run step init C146_sched = some s ∧ (∀ t, s.obj.stack t = []) ∧
    s.obj.log = [.began 0, .began 1, .ended 1] ∧ s.hits = [(0, .decide true)] := by
  refine ⟨_, rfl, fun t => ?_, rfl, rfl⟩
  simp only [upd_apply, init, Disposable.init]
  repeat' split
  all_goals rfl

/-- The code does not do it: a `dispose` interrupted before its action has lost the action for good. -/
theorem C146_full_statement_false : ¬ C146_full_statement := by
  intro h
  obtain ⟨s, h1, h2, h3, _⟩ := C146_lost_run
  have := h C146_sched s h1 h2 ⟨1, by rw [h3]; simp⟩
  rw [h3] at this
  revert this
  decide

/-- a case of `C146_exactly_once_partial` with interrupts: thread 0 while waiting for the lock, thread 2 in the block before it has marked the object -/
example : ∃ s, run step init [(0, .act .dispose), (1, .act .dispose), (1, .act .go), (0, .interrupt), (1, .act .go), (1, .interrupt),
      (2, .act .dispose), (2, .act .go), (2, .act .go), (2, .act .go), (2, .act .go), (2, .act .go), (2, .act .go)] = some s ∧
    s.obj.log = [.began 0, .began 1, .began 2, .ran 2, .ended 2] ∧ s.hits = [(0, .lock), (1, .set)] ∧ s.obj.owner = none := ⟨_, rfl, rfl, rfl, rfl⟩

end Expression.Props
