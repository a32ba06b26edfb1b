import Verif.Lemmas.AgentMore

/-! # C100, C101, C102: agents (`MailboxProcessor.start`)

`run (step b) (init b) sched = some s`: from a new agent with body `b` the schedule `sched` (any threads, any interleaving of their atomic actions with those of the event loop)
leads to `s`. -/

namespace Expression.Props

open Threads Spec.Agent Expression.Agent Lemmas.Agent

variable {S M : Type}

/-- a body that adds up the numbers it gets and replies with the sum so far -/
def adder : Body Nat Nat := ⟨0, (· + ·), fun s m => [none, some (s + m), some 99]⟩

/-- the event loop: first receive, two messages (one from another thread), both handled -/
def agentSched : List (Nat × Act Nat) :=
  [(0, .resume)] ++ List.replicate 8 (0, .go) ++ [(1, .post 5), (1, .go), (0, .ask 7)] ++ List.replicate 9 (0, .go) ++
    [(0, .resume), (0, .resume)] ++ List.replicate 12 (0, .go) ++ [(0, .resume)]

/-! ## C100 -/

/-- At every moment the body has handled the first so many of the messages sent, in the order in which they entered the queue, each once; its state is what handling exactly
these makes of it. -/
theorem C100_in_order (b : Body S M) (sched : List (Nat × Act M)) (s : State S M) (h : run (step b) (init b) sched = some s) :
    handledMessages s = (messages s).take s.handled.length ∧ s.handled.length ≤ (messages s).length ∧ s.handled = List.range s.handled.length ∧
      s.st = after b (handledMessages s) := by
  have hi := inv_run h
  have h1 : handledMessages s = (messages s).take s.handled.length := by
    have hb := hi.bound
    unfold handledMessages messages
    rw [hi.order, List.length_range]
    generalize s.handled.length = n at hb
    induction n with
    | zero => simp
    | succ n ih =>
      rw [List.range_succ, List.filterMap_append, ih (by omega), List.take_add_one]
      simp [List.getElem?_eq_getElem (show n < s.sent.length by omega)]
  refine ⟨h1, by rw [messages, List.length_map]; exact hi.bound, hi.order, ?_⟩
  rw [h1]
  exact hi.state

/-- No receive of the body raises: the body is never ended by an error of the mailbox. -/
theorem C100_no_error (b : Body S M) (sched : List (Nat × Act M)) (s : State S M) (h : run (step b) (init b) sched = some s) :
    s.task ≠ .raised ∧ .refused ∉ s.mb.log := ⟨(dead_run h).2.ok, (inv_run h).ref⟩

/-- Nobody cancels: when nothing goes on any more, all messages sent are handled (so none is lost, and as long as one is not handled, something goes on). -/
theorem C100_all_handled (b : Body S M) (sched : List (Nat × Act M)) (s : State S M) (hu : uncancelled sched) (h : run (step b) (init b) sched = some s) (hs : Stuck b s) :
    handledMessages s = messages s ∧ s.st = after b (messages s) := by
  obtain ⟨hi, hd⟩ := dead_run h
  obtain ⟨h1, _, _, h4⟩ := C100_in_order b sched s h
  have h2 := stuck_handled hi hd hs (uncancelled_run hu h)
  have h3 : (messages s).take s.handled.length = messages s := by
    rw [h2, show s.sent.length = (messages s).length by simp [messages]]
    exact List.take_length
  rw [h1, h3] at h4
  exact ⟨h1.trans h3, h4⟩

/-- And it does come to that: whatever the schedule, the steps of the event loop, of the open calls and of the body are bounded by the number of messages sent. -/
theorem C100_bounded (b : Body S M) (sched : List (Nat × Act M)) (s : State S M) (h : run (step b) (init b) sched = some s) :
    sched.countP isWork ≤ 35 * sched.countP isPost + 14 := by
  obtain ⟨l, hl⟩ := bounded_run h
  omega

/-- two messages are sent, one by another thread: both are handled, in the order in which they were sent, and the agent waits for the next -/
example : uncancelled agentSched ∧ (run (step adder) (init adder) agentSched).map (fun s => (messages s, handledMessages s, s.st)) = some ([5, 7], [5, 7], 12) := by
  refine ⟨?_, by decide +kernel⟩
  intro c hc t he
  subst he
  simp [agentSched] at hc

/-- the event loop goes on until the agent waits again -/
def agentSched2 : List (Nat × Act Nat) := agentSched ++ [(0, .resume)] ++ List.replicate 8 (0, .go) ++ [(0, .callback)] ++ List.replicate 5 (0, .go)

/-- then nothing goes on any more: the hypotheses of the theorems above can be met -/
theorem agentSched2_stuck : ∃ s, uncancelled agentSched2 ∧ run (step adder) (init adder) agentSched2 = some s ∧ Stuck adder s ∧ messages s = [5, 7] ∧ s.task = .waiting 2 := by
  have h1 : (run (step adder) (init adder) agentSched2).map
      (fun s => (messages s, s.task, s.mb.scheduled, s.mb.pc 0, s.mb.pc 1, s.mb.fut 2)) = some ([5, 7], .waiting 2, 0, .idle, .idle, .pending) := by decide +kernel
  obtain ⟨s, hs, he⟩ := Option.map_eq_some_iff.1 h1
  simp only [Prod.mk.injEq] at he
  obtain ⟨e1, e2, e3, e4, e5, e6⟩ := he
  refine ⟨s, ?_, hs, stuck_of ?_ e3 (by simp [step, e2, e4, e6]), e1, e2⟩
  · intro c hc t he
    subst he
    simp [agentSched2, agentSched] at hc
  · intro t
    by_cases h0 : t = 0
    · rw [h0]; exact e4
    by_cases h1 : t = 1
    · rw [h1]; exact e5
    refine idle_run ?_ hs
    have : agentSched2.all (fun c => decide (c.1 = 0 ∨ c.1 = 1)) = true := by decide +kernel
    intro c hc he
    have := of_decide_eq_true (List.all_eq_true.1 this c hc)
    omega

/-! ## C101 -/

/-- Whoever asked gets the first reply that is not `None`, as the body computes it from the message and the state that results from exactly the messages sent before;
nothing as long as the message is not handled. -/
theorem C101_reply (b : Body S M) (sched : List (Nat × Act M)) (s : State S M) (k : Nat) (x : M) (h : run (step b) (init b) sched = some s)
    (hk : s.sent[k]? = some (x, true)) :
    (k ∈ s.handled → answers s k = ((b.reply (after b ((messages s).take k)) x).find? (·.isSome)).toList) ∧ (k ∉ s.handled → answers s k = []) := by
  obtain ⟨hi, hc⟩ := chans_run h
  have hm : k ∈ s.handled ↔ k < s.handled.length := by rw [hi.order, List.length_range, List.mem_range]
  refine ⟨fun h1 => answers_of_ready (hc.done k x hk (hm.1 h1)), fun h1 => ?_⟩
  exact (hc.open' k x hk (Nat.le_of_not_lt fun h2 => h1 (hm.2 h2))).got

/-- Nobody cancels: when nothing goes on any more, everybody who asked has the answer. -/
theorem C101_everyone (b : Body S M) (sched : List (Nat × Act M)) (s : State S M) (k : Nat) (x : M) (hu : uncancelled sched) (h : run (step b) (init b) sched = some s)
    (hs : Stuck b s) (hk : s.sent[k]? = some (x, true)) :
    answers s k = ((b.reply (after b ((messages s).take k)) x).find? (·.isSome)).toList := by
  obtain ⟨hi, hd⟩ := dead_run h
  refine (C101_reply b sched s k x h hk).1 ?_
  rw [hi.order, List.mem_range, stuck_handled hi hd hs (uncancelled_run hu h)]
  exact (List.getElem?_eq_some_iff.1 hk).1

/-- Nobody else gets an answer: what was just posted has none. -/
theorem C101_posts (b : Body S M) (sched : List (Nat × Act M)) (s : State S M) (k : Nat) (x : M) (h : run (step b) (init b) sched = some s)
    (hk : s.sent[k]? = some (x, false)) : answers s k = [] := by
  unfold answers
  rw [(chans_run h).2.posted k x hk]
  rfl

example : (run (step adder) (init adder) agentSched).map (fun s => (s.sent, answers s 0, answers s 1)) = some ([(5, false), (7, true)], [], [some 12]) := by decide +kernel

/-! ## C102 -/

/-- the claim: cancelling the source ends the agent, and with it the waiting of all who asked it -/
def C102_full_statement : Prop :=
  ∀ (S M : Type) (b : Body S M) (sched sched' : List (Nat × Act M)) (s s' s'' : State S M), run (step b) (init b) sched = some s → step b s (0, .cancel) = some s' →
    run (step b) s' sched' = some s'' → Stuck b s'' → s''.handled = s.handled ∧ s''.task = .cancelled ∧ ∀ k x, s''.sent[k]? = some (x, true) → answers s'' k ≠ []

/-- the asker asks before the body runs first, then the source is cancelled -/
theorem C102_full_statement_false : ¬ C102_full_statement := by
  intro hf
  have h1 : (run (step adder) (init adder) [(0, .ask 7), (0, .go), (0, .go)]).map
      (fun s => (s.sent, s.task, s.cancelReq, s.mb.scheduled, s.mb.pc 0)) = some ([(7, true)], .created, false, 0, .idle) := by decide +kernel
  obtain ⟨s, hs, he⟩ := Option.map_eq_some_iff.1 h1
  simp only [Prod.mk.injEq] at he
  obtain ⟨e1, e2, e3, e4, e5⟩ := he
  have hidle : ∀ t, s.mb.pc t = .idle := by
    intro t
    by_cases ht : t = 0
    · rw [ht]; exact e5
    · exact idle_run (by simp only [List.mem_cons, List.not_mem_nil, or_false]; rintro c (rfl | rfl | rfl) <;> exact fun h => ht h.symm) hs
  have hcan : step adder s (0, .cancel) = some { s with mb := { s.mb with token := true }, cancelReq := true } := by
    simp [step, e2, e5]
  have hres : run (step adder) { s with mb := { s.mb with token := true }, cancelReq := true } [(0, .resume)] =
      some { s with mb := { s.mb with token := true }, cancelReq := true, task := .cancelled } := by
    simp [run, step, e2, e5]
  have hstuck : Stuck adder { s with mb := { s.mb with token := true }, cancelReq := true, task := .cancelled } := by
    exact stuck_of hidle e4 (by simp [step])
  have h2 := (hf Nat Nat adder _ _ s _ _ hs hcan hres hstuck).2.2 0 7 (by simp [e1])
  apply h2
  have h3 := (C101_reply adder _ s 0 7 hs (by simp [e1])).2 (by
    have := (inv_run hs)
    intro hm
    have h4 : (run (step adder) (init adder) [(0, .ask 7), (0, .go), (0, .go)]).map (·.handled) = some [] := by decide +kernel
    rw [hs] at h4
    cases h4' : s.handled with
    | nil => rw [h4'] at hm; cases hm
    | cons a l => simp [h4'] at h4)
  exact h3

/-- Cancelling the source ends the agent: nothing is handled any more and the state of the body stays, nobody gets another answer, and when nothing goes on any more the body
has ended by cancellation.  Missing: those whose messages were not handled wait for ever. -/
theorem C102_ends_partial (b : Body S M) (sched sched' : List (Nat × Act M)) (s s' s'' : State S M) (h : run (step b) (init b) sched = some s)
    (hc : step b s (0, .cancel) = some s') (h' : run (step b) s' sched' = some s'') :
    s''.handled = s.handled ∧ s''.st = s.st ∧ (∀ k, answers s'' k = answers s k) ∧ (Stuck b s'' → s''.task = .cancelled) := by
  have hreq : s'.cancelReq = true ∧ s'.handled = s.handled ∧ s'.st = s.st ∧ s'.chan = s.chan ∧ s'.sent = s.sent := by
    simp only [step] at hc
    split at hc
    · split at hc <;> cases hc <;> exact ⟨rfl, rfl, rfl, rfl, rfl⟩
    · cases hc
  have hrun : run (step b) (init b) (sched ++ ((0, .cancel) :: sched')) = some s'' := by
    rw [Lemmas.run_append, h]
    simp only [Option.bind_some, run, hc]
    exact h'
  have hstay := Lemmas.run_inv (step := step b) (fun x => x.cancelReq = true ∧ x.handled = s'.handled ∧ x.st = s'.st)
    (fun x c x' hx hc => by
      obtain ⟨h1, h2, h3⟩ := cancelled_step b x c x' hx.1 hc
      exact ⟨h1, h2.trans hx.2.1, h3.trans hx.2.2⟩) ⟨hreq.1, rfl, rfl⟩ sched' h'
  refine ⟨hstay.2.1.trans hreq.2.1, hstay.2.2.trans hreq.2.2.1, fun k => ?_, fun hst => ?_⟩
  · obtain ⟨hi, hch⟩ := chans_run h
    have := Lemmas.run_inv (step := step b) (fun x => Inv b x ∧ Chans b x ∧ x.cancelReq = true ∧ answers x k = answers s k)
      (fun x c x' hx hc => ⟨inv_step b x c x' hx.1 hc, chans_step b x c x' hx.1 hx.2.1 hc, (cancelled_step b x c x' hx.2.2.1 hc).1,
        (answers_step b x c x' hx.2.1.unknown hx.2.2.1 hc k).trans hx.2.2.2⟩)
      ⟨inv_step b s _ s' hi hc, chans_step b s _ s' hi hch hc, hreq.1, by simp only [answers, hreq.2.2.2.1]⟩ sched' h'
    exact this.2.2.2
  · obtain ⟨hi, hd⟩ := dead_run hrun
    rcases stuck_task hi hd hst with h1 | h1
    · rw [hstay.1] at h1; cases h1.1
    · exact h1.2

/-- the agent of C100 handled two messages and waits; the source is cancelled; a message is posted after that: it stays in the queue, the body ends -/
example : (run (step adder) (init adder) (agentSched2 ++ [(0, .cancel), (0, .resume), (1, .post 3), (1, .go), (0, .callback)] ++ List.replicate 4 (0, .go))).map
    (fun s => (s.handled, s.st, s.task, s.mb.queue)) = some ([0, 1], 12, .cancelled, [2]) := by decide +kernel

end Expression.Props
