import Verif.Lemmas.WorkerMore

/-! # C110, C111, C112, C113: agents with any coroutine as body (`MailboxProcessor.start`)

`run (step b) init sched = some s`: from a new agent with body `b` the schedule `sched` (any threads, any interleaving of their atomic actions with those of the event loop)
leads to `s`. -/

namespace Expression.Props

open Threads Lemmas Spec.Worker Expression.Worker Lemmas.Worker

variable {S M : Type}

/-- A body that keeps the last message it got.  It answers a message only when the next one comes (late, and with its number in place of 99 first `None`), receives with a
timeout, goes on after timeouts and errors, and raises when it gets a 0. -/
def lazyBody : Body (Option Nat) Nat where
  start := ⟨[], none, .receive true⟩
  resume st g := match st, g with
    | _, .message _ 0 => ⟨[], none, .stop true⟩
    | some k, .message m _ => ⟨[(k, none), (k, some m), (k, some 99)], some m, .receive true⟩
    | none, .message m _ => ⟨[], some m, .receive true⟩
    | st, .other _ => ⟨[], st, .receive true⟩
    | st, _ => ⟨[], st, .sleep⟩

/-- the body begins, and waits for its first message -/
def begins : List (Nat × Act Nat) := [(0, .resume 0)] ++ List.replicate 8 (0, .go)

/-- a message from another thread, given to the receive that waits -/
def arrives (x : Nat) : List (Nat × Act Nat) := [(1, .post x), (1, .go), (0, .callback)] ++ List.replicate 9 (0, .go)

/-- the timeout passes, a message comes, then the body receives again and another message comes -/
def lateSched : List (Nat × Act Nat) := begins ++ [(0, .timeout), (0, .resume 0)] ++ arrives 5 ++ begins ++ arrives 7 ++ [(0, .resume 0)]

/-! ## C110 -/

/-- What the body has received is in the order in which it was sent, each message once. -/
theorem C110_in_order (b : Body S M) (sched : List (Nat × Act M)) (s : State S M) (h : run (step b) init sched = some s) :
    s.received.Pairwise (· < ·) ∧ (∀ m ∈ s.received, m < (messages s).length) ∧ (receivedMessages s).Sublist (messages s) := by
  have hi := inv_run h
  have hsub : s.received.Sublist (List.range s.sent.length) := received_sublist hi
  refine ⟨List.pairwise_lt_range.sublist hsub, fun m hm => ?_, ?_⟩
  · rw [messages, List.length_map]
    exact List.mem_range.1 (hsub.subset hm)
  · have h1 := hsub.filterMap (fun k => (s.sent[k]?).map Prod.fst)
    rwa [filterMap_range] at h1

/-- What `received` holds is what the body got: each time it is resumed after an await, that is with a message that was sent, which is then the last one received, or with
something else, and nothing is received. -/
theorem C110_resumed (b : Body S M) (sched : List (Nat × Act M)) (s s' : State S M) (t v : Nat) (h : run (step b) init sched = some s) (hst : s.st ≠ none)
    (hc : step b s (t, .resume v) = some s') : ∃ g, ResumedWith b s s' g := by
  simp only [step] at hc
  split at hc
  · obtain ⟨g, hg, _⟩ := resumed_with (inv_run h) (fresh_run h) hst hc
    exact ⟨g, hg⟩
  · cases hc

/-- The first time it runs from the beginning. -/
theorem C110_begins (b : Body S M) (sched : List (Nat × Act M)) (s s' : State S M) (t v : Nat) (h : run (step b) init sched = some s) (hst : s.st = none)
    (hc : step b s (t, .resume v) = some s') :
    s'.received = [] ∧ ((s'.st = some b.start.state ∧ s'.replied = s.replied ++ b.start.replies.filter (fun r => asked s r.1)) ∨
      (s.mb.token = true ∧ s'.st = none ∧ s'.task = .ended true ∧ s'.replied = s.replied)) :=
  begins_step h hst hc

/-- the claim: none is skipped -/
def C110_full_statement : Prop :=
  ∀ (S M : Type) (b : Body S M) (sched : List (Nat × Act M)) (s : State S M), run (step b) init sched = some s →
    receivedMessages s = (messages s).take s.received.length

/-- a receive that timed out takes the next message -/
theorem C110_full_statement_false : ¬ C110_full_statement := by
  intro hf
  have h1 : (run (step lazyBody) init lateSched).map (fun s => (receivedMessages s, messages s, s.received)) = some ([7], [5, 7], [1]) := by decide +kernel
  obtain ⟨s, hs, he⟩ := Option.map_eq_some_iff.1 h1
  simp only [Prod.mk.injEq] at he
  obtain ⟨e1, e2, e3⟩ := he
  have := hf _ _ lazyBody lateSched s hs
  rw [e1, e2, e3] at this
  exact absurd this (by decide)

/-- No timeout passes: the body has received the first so many of the messages sent (also when the source was cancelled meanwhile).  Missing: receives with timeouts. -/
theorem C110_prefix_partial (b : Body S M) (sched : List (Nat × Act M)) (s : State S M) (ht : sched.countP isTimeout = 0) (h : run (step b) init sched = some s) :
    s.received = List.range s.received.length ∧ receivedMessages s = (messages s).take s.received.length := by
  obtain ⟨hi, hw⟩ := whole_run (no_timeouts ht) h
  have h1 : s.received <+: List.range s.sent.length := received_prefix hi hw
  have h2 : s.received = List.range s.received.length := by
    rw [List.prefix_iff_eq_take] at h1
    have hle : s.received.length ≤ s.sent.length := by
      have := congrArg List.length h1
      simp at this
      omega
    rw [List.take_range, Nat.min_eq_left hle] at h1
    exact h1
  refine ⟨h2, ?_⟩
  obtain ⟨r, hr⟩ := h1
  have h3 : receivedMessages s ++ r.filterMap (fun k => (s.sent[k]?).map Prod.fst) = messages s := by
    rw [receivedMessages, ← List.filterMap_append, hr, filterMap_range]; rfl
  have h4 : (receivedMessages s).length = s.received.length := received_length hi
  rw [← h3, ← h4]
  simp

/-- Nobody cancels, and nothing goes on any more: the body has ended or waits for a message, and then at most one message was lost for each timeout that passed. -/
theorem C110_lost_partial (b : Body S M) (sched : List (Nat × Act M)) (s : State S M) (hu : uncancelled sched) (h : run (step b) init sched = some s) (hs : Stuck b s) :
    (∃ raised, s.task = .ended raised) ∨ ∃ n within, s.task = .waiting n within ∧ (messages s).length ≤ (receivedMessages s).length + sched.countP isTimeout := by
  have hi := inv_run h
  rcases stuck_task hi hs with ⟨n, w, ht, hf, hn, htk⟩ | h1
  · refine .inr ⟨n, w, ht, ?_⟩
    have h2 := stuck_account hi hs
    rw [stuck_queue hi hs hf htk, List.append_nil] at h2
    have h3 := congrArg List.length h2
    rw [List.length_range, Lemmas.Mailbox.handled_length] at h3
    have h4 := (count_run hu h).2
    have h5 : inbox s = [] := by unfold inbox; simp only [ht, hn, hf]
    have h6 := hi.all.loop.drops1
    rw [received_length hi, messages, List.length_map]
    rw [h5, List.length_nil] at h4
    omega
  · exact .inl h1

/-- Nobody cancels, no timeout passes, and nothing goes on any more: the body has ended, or it waits for a message and has received all. -/
theorem C110_all_partial (b : Body S M) (sched : List (Nat × Act M)) (s : State S M) (hu : uncancelled sched) (ht : sched.countP isTimeout = 0)
    (h : run (step b) init sched = some s) (hs : Stuck b s) :
    (∃ raised, s.task = .ended raised) ∨ ∃ n within, s.task = .waiting n within ∧ receivedMessages s = messages s := by
  rcases C110_lost_partial b sched s hu h hs with h1 | ⟨n, w, h1, h2⟩
  · exact .inl h1
  · refine .inr ⟨n, w, h1, ?_⟩
    rw [ht] at h2
    exact (C110_in_order b sched s h).2.2.eq_of_length_le (by omega)

/-- a schedule that meets all hypotheses: two messages are received, the first is answered late -/
def calmSched : List (Nat × Act Nat) := begins ++ [(0, .ask 5)] ++ List.replicate 9 (0, .go) ++ begins ++ arrives 7 ++ begins

example : uncancelled calmSched := by
  intro c hc t he
  subst he
  revert hc
  simp [calmSched, begins, arrives]

example : calmSched.countP isTimeout = 0 := by decide

example : (run (step lazyBody) init calmSched).map (fun s => (s.task, receivedMessages s, messages s, answers s 0)) = some (.waiting 2 true, [5, 7], [5, 7], [some 1]) := by
  decide +kernel

/-- nothing goes on after it -/
example : ∃ s, run (step lazyBody) init calmSched = some s ∧ Stuck lazyBody s := by
  have h1 : (run (step lazyBody) init calmSched).map (fun s => ((s.task, s.mb.scheduled, s.intr), s.mb.pc 0, s.mb.pc 1, s.mb.fut 2)) =
      some ((.waiting 2 true, 0, none), .idle, .idle, .pending) := by decide +kernel
  obtain ⟨s, hs, he⟩ := Option.map_eq_some_iff.1 h1
  simp only [Prod.mk.injEq] at he
  obtain ⟨⟨e1, e2, e6⟩, e3, e4, e5⟩ := he
  exact ⟨s, hs, stuck_of hs (by decide) e3 e4 e2 fun v => by simp [resume, e1, e5, e6]⟩

/-! ## C111 -/

/-- Who asks gets the first reply that is not `None`, once, whoever replied, whenever, and whatever was replied before and after.  As long as there is none the asker
waits.  Nobody gets an answer who just posted. -/
theorem C111_answer (b : Body S M) (sched : List (Nat × Act M)) (s : State S M) (k : Nat) (h : run (step b) init sched = some s) :
    answers s k = if asked s k then ((repliesTo s k).find? (·.isSome)).toList else [] :=
  answers_eq (chans_run h) k

/-- The replies are those that the turns of the body make (see `C110_resumed`, `C110_begins`), and the calls of others to whom the channel was given; nothing else is. -/
theorem C111_replies (b : Body S M) (s s' : State S M) (c : Nat × Act M) (hr : isResume c = false) (hc : step b s c = some s') :
    s'.replied = s.replied ∨ ∃ t k r, c = (t, .reply k r) ∧ s'.replied = if asked s k then s.replied ++ [(k, r)] else s.replied :=
  replied_step hr hc

/-- An answer is final. -/
theorem C111_final (b : Body S M) (before after : List (Nat × Act M)) (s s' : State S M) (k : Nat) (h : run (step b) init before = some s) (hs : run (step b) s after = some s')
    (ha : answers s k ≠ []) : answers s' k = answers s k := by
  have h' : run (step b) init (before ++ after) = some s' := by rw [run_append, h]; exact hs
  have hg := grow_run hs
  rw [answers_eq (chans_run h)] at ha ⊢
  rw [answers_eq (chans_run h')]
  split at ha
  · rename_i hk
    rw [asked_grow hg.1 (asked_lt hk), hk]
    obtain ⟨r, hr⟩ := hg.2
    have h1 : repliesTo s' k = repliesTo s k ++ (r.filter (fun c => c.1 == k)).map Prod.snd := by
      unfold repliesTo
      rw [← hr, List.filter_append, List.map_append]
    rw [h1, List.find?_append]
    cases ho : (repliesTo s k).find? (·.isSome) with
    | none => rw [ho] at ha; exact absurd rfl ha
    | some o => rfl
  · exact absurd rfl ha

/-- the first question is answered when the next message comes: with 1, the first reply that is not `None` -/
example : (run (step lazyBody) init (calmSched ++ [(0, .reply 0 (some 3))])).map (fun s => ((asked s 0, repliesTo s 0, answers s 0), asked s 1, answers s 1)) =
    some ((true, [none, some 1, some 99, some 3], [some 1]), false, []) := by
  decide +kernel

example : (run (step lazyBody) init (begins ++ [(0, .ask 5)])).map (fun s => answers s 0) = some [] := by decide +kernel

/-! ## C112 -/

/-- A body that has ended stays so: it receives nothing, whatever is sent. -/
theorem C112_silent (b : Body S M) (s s' : State S M) (sched : List (Nat × Act M)) (raised : Bool) (h : s.task = .ended raised) (hs : run (step b) s sched = some s') :
    s'.task = .ended raised ∧ s'.st = s.st ∧ s'.received = s.received :=
  ended_run h hs

/-- Who asks it, or had asked and has no answer, waits until somebody else replies. -/
theorem C112_unanswered (b : Body S M) (before after : List (Nat × Act M)) (s s' : State S M) (raised : Bool) (k : Nat) (h : run (step b) init before = some s)
    (he : s.task = .ended raised) (hs : run (step b) s after = some s') (hno : ∀ c ∈ after, ∀ t r, c ≠ (t, .reply k r)) : answers s' k = answers s k := by
  have h' : run (step b) init (before ++ after) = some s' := by rw [run_append, h]; exact hs
  have hg := grow_run hs
  rw [answers_eq (chans_run h), answers_eq (chans_run h'), ended_replies k he hno hs]
  by_cases hk : k < s.sent.length
  · rw [asked_grow hg.1 hk]
  · rw [repliesTo_unknown (chans_run h) (by omega)]
    simp

/-- And yet nobody is told: any thread can post, and on the event loop one can ask, as ever. -/
theorem C112_accepts (b : Body S M) (s : State S M) (t : Nat) (x : M) (hi : s.mb.pc t = .idle) :
    (∃ s', step b s (t, .post x) = some s' ∧ messages s' = messages s ++ [x]) ∧ (t = 0 → ∃ s', step b s (t, .ask x) = some s' ∧ messages s' = messages s ++ [x]) := by
  refine ⟨⟨_, by simp only [step, Mailbox.step, hi, if_true, Option.map_some]; rfl, by simp [messages]⟩, fun ht => ?_⟩
  subst ht
  exact ⟨_, by simp only [step, Mailbox.step, hi, if_true, Option.map_some]; rfl, by simp [messages]⟩

/-- The messages that it did not receive stay in the queue. -/
theorem C112_left (b : Body S M) (sched : List (Nat × Act M)) (s : State S M) (raised : Bool) (hu : uncancelled sched) (ht : sched.countP isTimeout = 0)
    (h : run (step b) init sched = some s) (hs : Stuck b s) (he : s.task = .ended raised) :
    s.mb.queue = (List.range (messages s).length).drop s.received.length := by
  obtain ⟨hi, hw⟩ := whole_run (no_timeouts ht) h
  have h1 := stuck_account hi hs
  rw [Lemmas.Mailbox.handled_of_drops _ hw.drop, ← (hw.give (count_run hu h).1).2, inbox_not_waiting (by rw [he]; simp), List.append_nil] at h1
  rw [messages, List.length_map, h1, List.drop_left]

/-- a body that raises at the message 0, and then gets two more -/
def brokenSched : List (Nat × Act Nat) := begins ++ arrives 0 ++ [(0, .resume 0), (1, .post 7), (1, .go), (0, .callback), (0, .go), (0, .go), (0, .ask 8), (0, .go), (0, .go)]

example : (run (step lazyBody) init brokenSched).map (fun s => ((s.task, s.received, messages s), s.mb.queue, answers s 2)) = some ((.ended true, [0], [0, 7, 8]), [1, 2], []) := by
  decide +kernel

example : ∃ s, run (step lazyBody) init brokenSched = some s ∧ Stuck lazyBody s := by
  have h1 : (run (step lazyBody) init brokenSched).map (fun s => (s.task, s.mb.scheduled, s.mb.pc 0, s.mb.pc 1)) = some (.ended true, 0, .idle, .idle) := by decide +kernel
  obtain ⟨s, hs, he⟩ := Option.map_eq_some_iff.1 h1
  simp only [Prod.mk.injEq] at he
  obtain ⟨e1, e2, e3, e4⟩ := he
  exact ⟨s, hs, stuck_of hs (by decide) e3 e4 e2 fun v => by simp [resume, e1]⟩

/-! ## C113 -/

/-- Once the source of its token is cancelled the body receives no message any more, also if it catches the exception and goes on. -/
theorem C113_no_message (b : Body S M) (before after : List (Nat × Act M)) (s s' : State S M) (h : run (step b) init before = some s) (hc : s.mb.token = true)
    (hs : run (step b) s after = some s') : receivedMessages s' = receivedMessages s := by
  have hi := inv_run h
  have hr := (token_run hi hc hs).2.2
  obtain ⟨r, hg⟩ := (grow_run hs).1
  unfold receivedMessages
  rw [hr, ← hg]
  have key : ∀ l : List Nat, (∀ m ∈ l, m < s.sent.length) → l.filterMap (fun k => ((s.sent ++ r)[k]?).map Prod.fst) = l.filterMap (fun k => (s.sent[k]?).map Prod.fst) := by
    intro l hl
    induction l with
    | nil => rfl
    | cons a l ih =>
      rw [List.filterMap_cons, List.filterMap_cons, List.getElem?_append_left (hl a (List.mem_cons_self ..)), ih fun m hm => hl m (List.mem_cons_of_mem _ hm)]
  exact key _ fun m hm => List.mem_range.1 ((received_sublist hi).subset hm)

/-- When the source is cancelled, a body that waits (for a message or for something else) is told: whatever happens until it is resumed, it is resumed with `CancelledError`. -/
theorem C113_told (b : Body S M) (before between : List (Nat × Act M)) (s s1 s2 s' : State S M) (t t' v : Nat) (h : run (step b) init before = some s) (hst : s.st ≠ none)
    (hne : ∀ raised, s.task ≠ .ended raised) (hnot : s.mb.token = false) (hc : step b s (t, .cancel) = some s1) (hb : ∀ c ∈ between, isResume c = false)
    (hs : run (step b) s1 between = some s2) (hr : step b s2 (t', .resume v) = some s') : ResumedWith b s2 s' .cancelled ∧ s2.st = s.st := by
  obtain ⟨a1, a2, a3, a4, _⟩ := cancel_step hnot hne hc
  obtain ⟨b1, b2, b3, b4⟩ := told_run a1 a2 hb hs
  have h2 : run (step b) init (before ++ (t, .cancel) :: between) = some s2 := by
    rw [run_append, h]
    simp only [Option.bind_some, run, hc]
    exact hs
  simp only [step] at hr
  split at hr
  · obtain ⟨g, hg, _, hg2, _⟩ := resumed_with (inv_run h2) (fresh_run h2) (by rw [b2, a3]; exact hst) hr
    rw [hg2 b1] at hg
    exact ⟨hg, b2.trans a3⟩
  · cases hr

/-- A body that has not begun when the source is cancelled never begins. -/
theorem C113_never_begins (b : Body S M) (before after : List (Nat × Act M)) (s s1 s' : State S M) (t : Nat) (h : run (step b) init before = some s) (hcr : s.task = .created)
    (hnot : s.mb.token = false) (hc : step b s (t, .cancel) = some s1) (hs : run (step b) s1 after = some s') : s'.st = none ∧ s'.received = [] := by
  have he := early_run h
  obtain ⟨a1, a2, a3, a4, _⟩ := cancel_step hnot (by rw [hcr]; simp) hc
  have := run_inv _ (never_step b) ⟨early_step b _ _ _ he hc, a3.trans (he.fresh hcr), .inl ⟨a4.trans hcr, a1, a2⟩⟩ after hs
  exact ⟨this.2.1, this.1.none this.2.1⟩

/-- If it goes on, each receive ends: with `CancelledError`, with the timeout, or because it is refused; it never waits for ever. -/
theorem C113_receives_end (b : Body S M) (sched : List (Nat × Act M)) (s s' : State S M) (t v n : Nat) (within : Bool) (h : run (step b) init sched = some s) (hc : s.mb.token = true)
    (hw : s.task = .waiting n within) (hr : step b s (t, .resume v) = some s') :
    ResumedWith b s s' .cancelled ∨ ResumedWith b s s' .timedOut ∨ ResumedWith b s s' .refused := by
  simp only [step] at hr
  split at hr
  · have hst : s.st ≠ none := by
      intro h3
      rcases (inv_run h).runs h3 with h4 | ⟨r, h4⟩ <;> rw [hw] at h4 <;> cases h4
    obtain ⟨g, hg, h1, _, h2⟩ := resumed_with (inv_run h) (fresh_run h) hst hr
    cases g with
    | message m x => exact absurd rfl (h1 hc m x)
    | other u => exact absurd rfl (h2 ⟨n, within, hw⟩ u)
    | cancelled => exact .inl hg
    | timedOut => exact .inr (.inl hg)
    | refused => exact .inr (.inr hg)
  · cases hr

/-- When nothing goes on any more the body has ended. -/
theorem C113_ends (b : Body S M) (sched : List (Nat × Act M)) (s : State S M) (h : run (step b) init sched = some s) (hc : s.mb.token = true) (hs : Stuck b s) :
    ∃ raised, s.task = .ended raised := by
  rcases stuck_task (inv_run h) hs with ⟨n, w, _, _, _, ht⟩ | h1
  · rw [hc] at ht; cases ht
  · exact h1

/-- A body that catches `CancelledError` and receives again, twice; then it returns. -/
def stubborn : Body Nat Nat where
  start := ⟨[], 0, .receive false⟩
  resume st g := match g with
    | .message _ _ => ⟨[], st, .receive false⟩
    | .refused => ⟨[], st + 10, .stop false⟩
    | _ => ⟨[], st + 1, .receive false⟩

/-- the waiting receive is told, the next is refused since the first is still in place; a message that comes meanwhile is not received -/
def stubbornSched : List (Nat × Act Nat) := begins ++ [(0, .cancel), (1, .post 5), (1, .go), (0, .callback)] ++ List.replicate 4 (0, .go) ++ [(0, .resume 0), (0, .go), (0, .resume 0)]

example : (run (step stubborn) init stubbornSched).map (fun s => (s.task, s.st, s.received, messages s)) = some (.ended false, some 11, [], [5]) := by
  decide +kernel

example : (run (step stubborn) init (stubbornSched.take 10)).map (fun s => (s.task, s.mb.token, s.intr, s.st)) = some (.waiting 0 false, true, some .cancel, some 0) := by
  decide +kernel

example : (run (step stubborn) init [(0, .cancel), (0, .resume 0)]).map (fun s => (s.task, s.st)) = some (.ended true, none) := by
  decide +kernel

end Expression.Props
