import Verif.Lemmas.MailboxInterrupt

/-! # C148: mailboxes and interrupts

`run step init sched = some s`: from a new mailbox the schedule `sched` leads to `s`: any threads, any interleaving of their atomic actions, and exceptions that end
calls of `post` and `post_and_async_reply` anywhere, in any thread but that of the event loop (thread `0`). -/

namespace Expression.Props

open Threads Lemmas Lemmas.Mailbox Lemmas.MailboxInterrupt Spec.Mailbox Spec.MailboxInterrupt Expression.Mailbox Expression.MailboxInterrupt

/-- Other threads only post: the messages delivered, at most one on its way, and those in the queue are exactly the messages that entered the queue, in order; none is
dropped; the receives are served in the order in which they began, each with one message; and what the log says is what the awaiters get.  Interrupts do not change this. -/
theorem C148_in_order (sched : List (Nat × MailboxInterrupt.Act)) (s : MailboxInterrupt.State) (hs : Spec.MailboxInterrupt.loopAsks sched)
    (hp : Spec.MailboxInterrupt.patient sched) (h : run MailboxInterrupt.step MailboxInterrupt.init sched = some s) :
    (∃ onItsWay : List Nat, onItsWay.length ≤ 1 ∧ ((∀ t, s.obj.pc t = .idle) → onItsWay = []) ∧
        posted s.obj.log = delivered s.obj.log ++ (onItsWay ++ s.obj.queue)) ∧
      (returned s.obj.log).Pairwise (· < ·) ∧ drops s.obj.log = 0 ∧ ∀ n m, s.obj.fut n = .result m ↔ .got n m ∈ s.obj.log := by
  have ha := all_irun h
  have hd : drops s.obj.log = 0 := by
    have := (wakes_irun hs h).1.drops1
    rw [igivenUp_run hp h] at this
    omega
  refine ⟨?_, ha.ord.sorted, hd, ha.futs.got⟩
  rw [← handled_of_drops s.obj.log hd]
  cases ho : s.obj.owner with
  | none => exact ⟨[], by simp, fun _ => rfl, by simpa using ha.acc.free ho⟩
  | some t =>
    refine ⟨hand (s.obj.pc t), ?_, fun h => by rw [h t]; rfl, ha.acc.held t ho⟩
    cases s.obj.pc t <;> simp [hand]

/-- thread 1 is interrupted after its message has entered the queue, thread 2 is not: the receives get both messages, in order -/
example : (run MailboxInterrupt.step MailboxInterrupt.init ([(1, .act (.post 7)), (2, .act (.post 8)), (1, .interrupt), (0, .act .receive), (2, .act .go)] ++
    List.replicate 12 (0, .act .go) ++ [(0, .act .callback), (0, .act .go), (0, .act .go), (0, .act .receive)] ++ List.replicate 11 (0, .act .go))).map
      (fun s => (s.obj.log, s.obj.queue, s.cut)) =
      some ([.posted 7, .posted 8, .began 0, .got 0 7, .began 1, .got 1 8], [], [0]) := by decide +kernel

/-- The claim: when all is quiet, no receive waits while a message is queued. -/
def C148_full_statement : Prop :=
  ∀ (sched : List (Nat × MailboxInterrupt.Act)) (s : MailboxInterrupt.State) (n : Nat), Spec.MailboxInterrupt.loopAsks sched →
    run MailboxInterrupt.step MailboxInterrupt.init sched = some s → Quiescent s.obj → s.obj.token = false → s.obj.fut n = .pending → s.obj.queue = []

/-- a receive waits; thread 1 posts and is interrupted when the message is in the queue -/
def C148_sched : List (Nat × MailboxInterrupt.Act) :=
  [(0, .act .receive)] ++ List.replicate 8 (0, .act .go) ++ [(1, .act (.post 7)), (1, .interrupt)]

theorem C148_full_statement_false : ¬ C148_full_statement := by
  intro hf
  have h1 : (run MailboxInterrupt.step MailboxInterrupt.init C148_sched).map
      (fun s => ((s.obj.pc 0, s.obj.pc 1, s.obj.queue), s.obj.scheduled, s.obj.token, s.obj.fut 0)) =
      some ((.idle, .idle, [7]), 0, false, .pending) := by decide +kernel
  obtain ⟨s, hs, he⟩ := Option.map_eq_some_iff.1 h1
  obtain ⟨⟨e1, e2, e3⟩, e4, e5, e6⟩ : (s.obj.pc 0 = _ ∧ s.obj.pc 1 = _ ∧ s.obj.queue = _) ∧ s.obj.scheduled = _ ∧ s.obj.token = _ ∧ s.obj.fut 0 = _ := by
    simp only [Prod.mk.injEq] at he; exact he
  have hl : Spec.MailboxInterrupt.loopAsks C148_sched := by intro t m h; simp [C148_sched] at h
  have hidle : ∀ t, s.obj.pc t = .idle := by
    intro t
    by_cases h0 : t = 0
    · rw [h0]; exact e1
    by_cases h1 : t = 1
    · rw [h1]; exact e2
    refine run_inv_on (step := MailboxInterrupt.step) (fun c : Nat × MailboxInterrupt.Act => c.1 ≠ t) (fun s => s.obj.pc t = .idle)
      (fun s c s' hP h hc => ?_) rfl C148_sched ?_ hs
    · rcases istep_cases hc with ⟨a, _, h2, _⟩ | ⟨_, _, _, h4⟩
      · rw [(left_step t s.obj (c.1, a) s'.obj h2).2.2.1 hP]; exact h
      · rw [h4]; exact (upd_other _ _ (Ne.symm hP)).trans h
    · rintro ⟨u, a⟩ hm rfl
      simp [C148_sched] at hm
      omega
  have := hf C148_sched s 0 hl hs ⟨hidle, e4⟩ e5 e6
  rw [e3] at this
  cases this

/-- Only messages of interrupted posts are left: when all is quiet and a receive waits, every message in the queue is one whose `post` was interrupted. -/
theorem C148_left_over_partial (sched : List (Nat × MailboxInterrupt.Act)) (s : MailboxInterrupt.State) (n : Nat) (hs : Spec.MailboxInterrupt.loopAsks sched)
    (h : run MailboxInterrupt.step MailboxInterrupt.init sched = some s) (hq : Quiescent s.obj) (ht : s.obj.token = false) (hn : s.obj.fut n = .pending)
    (i : Nat) (hi : Queued s.obj i) : i ∈ s.cut := by
  obtain ⟨hl, hw⟩ := wakes_irun hs h
  have hc : s.obj.cont ≠ none := by
    rcases hl.pend n hn with hc | hc
    · rw [hc]; simp
    · rw [hq.1 0] at hc; cases hc
  rcases hw hc ht i hi with k | ⟨t, k, _⟩ | k | k
  · exact k
  · rw [hq.1 t] at k; cases k
  · rw [hq.2] at k; cases k
  · rw [hq.1 0] at k; cases k

/-- In particular nothing is left if the last `post` was not interrupted: it wakes the receiver for those before it too. -/
theorem C148_last_post_partial (sched : List (Nat × MailboxInterrupt.Act)) (s : MailboxInterrupt.State) (n : Nat) (hs : Spec.MailboxInterrupt.loopAsks sched)
    (h : run MailboxInterrupt.step MailboxInterrupt.init sched = some s) (hq : Quiescent s.obj) (ht : s.obj.token = false) (hn : s.obj.fut n = .pending)
    (hlast : (posted s.obj.log).length - 1 ∉ s.cut) : s.obj.queue = [] := by
  refine Classical.byContradiction fun hne => hlast (C148_left_over_partial sched s n hs h hq ht hn _ ?_)
  have hacc := (all_irun h).acc
  have ho : s.obj.owner = none := by
    cases ho : s.obj.owner with
    | none => rfl
    | some t => have := (hacc.crit t).2 ho; rw [hq.1 t] at this; cases this
  have := congrArg List.length (hacc.free ho)
  have : 0 < s.obj.queue.length := List.length_pos_iff.2 hne
  simp only [List.length_append] at *
  exact ⟨by omega, by omega⟩

/-- What is left over is delivered by the next `post`, whoever calls it: the waiting receive gets the oldest message of the queue -/
theorem C148_next_post_partial (sched : List (Nat × MailboxInterrupt.Act)) (s : MailboxInterrupt.State) (n m m' : Nat) (ms : List Nat)
    (hs : Spec.MailboxInterrupt.loopAsks sched) (h : run MailboxInterrupt.step MailboxInterrupt.init sched = some s) (hq : Quiescent s.obj)
    (ht : s.obj.token = false) (hn : s.obj.fut n = .pending) (hm : s.obj.queue = m :: ms) (t : Nat) :
    ∃ s', run MailboxInterrupt.step s ([(t, .act (.post m')), (t, .act .go), (0, .act .callback)] ++ List.replicate 9 (0, .act .go)) = some s' ∧
      s'.obj.log = s.obj.log ++ [.posted m', .got n m] ∧ s'.obj.queue = ms ++ [m'] ∧ s'.obj.fut n = .result m ∧ Quiescent s'.obj := by
  have hacc := (all_irun h).acc
  have ho : s.obj.owner = none := by
    cases ho : s.obj.owner with
    | none => rfl
    | some t => have := (hacc.crit t).2 ho; rw [hq.1 t] at this; cases this
  have hc : s.obj.cont = some n := by
    rcases (wakes_irun hs h).1.pend n hn with hc | hc
    · exact hc
    · rw [hq.1 0] at hc; cases hc
  have hi := hq.1
  have h0 := hq.2
  have hz : ∀ u, upd (upd s.obj.pc t .sched) t .idle u = .idle := fun u => by
    simp only [upd_apply, hi]; split <;> rfl
  refine ⟨_, by simp only [List.replicate, List.cons_append, List.nil_append, run, MailboxInterrupt.step, Mailbox.step, State.at, State.say, hi, if_true,
    Option.map_some, upd_same, hz, h0, ht, hm, hc, ho, hn, reduceCtorEq, if_false, and_self, Nat.zero_add, Nat.lt_add_one, Bool.false_eq_true]; rfl, ?_, ?_, ?_, ?_, ?_⟩
  · simp
  · rfl
  · exact upd_same ..
  · intro u
    simp only [upd_apply, hi]
    repeat' split
    all_goals first | rfl | omega
  · rfl

/-- the receive of `C148_sched`, after thread 2 has posted: it gets the message of the interrupted post, and the next receive the other one -/
example : (run MailboxInterrupt.step MailboxInterrupt.init (C148_sched ++ [(2, .act (.post 8)), (2, .act .go), (0, .act .callback)] ++
    List.replicate 9 (0, .act .go) ++ [(0, .act .receive)] ++ List.replicate 11 (0, .act .go))).map (fun s => (s.obj.log, s.obj.queue, s.cut, s.obj.pc 0)) =
      some ([.began 0, .posted 7, .posted 8, .got 0 7, .began 1, .got 1 8], [], [0], .unlock) := by decide +kernel

/-- Also with asks from other threads that are interrupted anywhere: what is delivered is a part of what was posted, in order; receives are served in order, once each;
and no more is lost than without interrupts (C54): two messages for every ask from another thread, and one for every receive given up. -/
theorem C148_losses (sched : List (Nat × MailboxInterrupt.Act)) (s : MailboxInterrupt.State)
    (h : run MailboxInterrupt.step MailboxInterrupt.init sched = some s) :
    (delivered s.obj.log).Sublist (posted s.obj.log) ∧ (returned s.obj.log).Pairwise (· < ·) ∧
      drops s.obj.log ≤ givenUp s.obj.log + 2 * Spec.MailboxInterrupt.asksElsewhere sched ∧
      ∃ inHand, inHand ≤ 1 ∧ ((∀ t, s.obj.pc t = .idle) → inHand = 0) ∧
        (posted s.obj.log).length = (delivered s.obj.log).length + drops s.obj.log + inHand + s.obj.queue.length := by
  have ha := all_irun h
  obtain ⟨hd, h1, h2, h3⟩ : ∃ h : List Nat, h.length ≤ 1 ∧ ((∀ t, s.obj.pc t = .idle) → h = []) ∧
      posted s.obj.log = handled s.obj.log ++ (h ++ s.obj.queue) := by
    cases ho : s.obj.owner with
    | none => exact ⟨[], by simp, fun _ => rfl, by simpa using ha.acc.free ho⟩
    | some t =>
      refine ⟨hand (s.obj.pc t), ?_, fun h => by rw [h t]; rfl, ha.acc.held t ho⟩
      cases s.obj.pc t <;> simp [hand]
  refine ⟨?_, ha.ord.sorted, idrops_run h, hd.length, h1, fun hi => by rw [h2 hi]; rfl, ?_⟩
  · rw [h3]; exact (delivered_sublist_handled s.obj.log).trans (List.sublist_append_left ..)
  · rw [h3, List.length_append, List.length_append, handled_length]; omega

/-- thread 1 asks, takes its own message from the queue and is interrupted with the message in its hands; the lock is free, and the next message arrives -/
example : (run MailboxInterrupt.step MailboxInterrupt.init ([(0, .act .receive)] ++ List.replicate 8 (0, .act .go) ++ [(1, .act (.ask 7))] ++
    List.replicate 5 (1, .act .go) ++ [(1, .interrupt), (2, .act (.post 8)), (2, .act .go), (0, .act .callback)] ++ List.replicate 9 (0, .act .go))).map
      (fun s => (s.obj.log, s.obj.queue, s.obj.owner, s.obj.pc 0)) =
      some ([.began 0, .posted 7, .dropped 7, .posted 8, .got 0 8], [], none, .idle) := by decide +kernel

/-- An interrupt leaves nobody waiting for the lock: while some call is open, some open call can go on; when none is, the lock is free. -/
theorem C148_no_deadlock (sched : List (Nat × MailboxInterrupt.Act)) (s : MailboxInterrupt.State)
    (h : run MailboxInterrupt.step MailboxInterrupt.init sched = some s) :
    (∀ t, s.obj.pc t ≠ .idle → ∃ u s', s.obj.pc u ≠ .idle ∧ MailboxInterrupt.step s (u, .act .go) = some s') ∧
      ((∀ t, s.obj.pc t = .idle) → s.obj.owner = none) := by
  have ha := (all_irun h).acc
  refine ⟨fun t ht => ?_, fun hq => ?_⟩
  · obtain ⟨u, hu, hg⟩ := someone_goes ha ht
    obtain ⟨o, ho⟩ := Option.isSome_iff_exists.1 hg
    exact ⟨u, { s with obj := o }, hu, by simp only [MailboxInterrupt.step, ho]; rfl⟩
  · cases ho : s.obj.owner with
    | none => rfl
    | some t => have := (ha.crit t).2 ho; rw [hq t] at this; cases this

end Expression.Props
