import Verif.Lemmas.MailboxCancel
import Verif.Lemmas.MailboxFuture
import Verif.Lemmas.MailboxRace
import Verif.Lemmas.Ask

/-! # C52, C53, C54, C55, C65, C66: the mailbox

`run step init sched = some s`: from a new mailbox the schedule `sched` (any threads, any interleaving of their atomic actions) leads to `s`.  Thread `0` runs the event loop. -/

namespace Expression.Props

section mailbox

open Threads Lemmas Lemmas.Mailbox Spec.Mailbox Expression.Mailbox

/-- what is on its way from the queue to a receive: nothing, or the one message in the hands of the event loop -/
theorem in_hand {s : State} (ha : Acc s) : ∃ h : List Nat, h.length ≤ 1 ∧ ((∀ t, s.pc t = .idle) → h = []) ∧ posted s.log = handled s.log ++ (h ++ s.queue) := by
  cases ho : s.owner with
  | none => exact ⟨[], by simp, fun _ => rfl, by simpa using ha.free ho⟩
  | some t =>
    refine ⟨hand (s.pc t), ?_, fun h => by rw [h t]; rfl, ha.held t ho⟩
    cases s.pc t <;> simp [hand]

/-! ## C52 -/

/-- Only the event loop processes events (other threads post), and no awaiter gives up: the messages delivered so far, then at most one on its way, then the queue, are exactly
the messages posted, in order; and the receives are served in the order in which they began, each with one message. -/
theorem C52_in_order (sched : List (Nat × Act)) (s : State) (hs : loopAsks sched) (hp : patient sched) (h : run step init sched = some s) :
    (∃ onItsWay : List Nat, onItsWay.length ≤ 1 ∧ ((∀ t, s.pc t = .idle) → onItsWay = []) ∧ posted s.log = delivered s.log ++ (onItsWay ++ s.queue)) ∧
      (returned s.log).Pairwise (· < ·) ∧ drops s.log = 0 := by
  have hl := loopAll_run hs h
  have hd : drops s.log = 0 := by
    have := hl.loop.drops1
    rw [givenUp_run hp h] at this
    omega
  refine ⟨?_, hl.ord.sorted, hd⟩
  rw [← handled_of_drops s.log hd]
  exact in_hand hl.acc

/-- two threads post while the event loop receives -/
def exampleSched : List (Nat × Act) :=
  [(1, .post 7), (2, .post 8), (0, .receive), (2, .go)] ++ List.replicate 11 (0, .go) ++ [(1, .go), (0, .go), (0, .callback), (0, .go), (0, .go), (0, .receive)]

example : (run step init exampleSched).map (fun s => (s.log, s.queue)) = some ([.posted 7, .posted 8, .began 0, .got 0 7], [8]) := by decide +kernel

example : loopAsks exampleSched ∧ patient exampleSched := by
  constructor
  · intro t m h; simp [exampleSched] at h
  · intro t n h; simp [exampleSched] at h

/-- The log tells what the awaiters get: in every schedule receive number `n` has the result `m` exactly when it is logged as returning `m`, and likewise for being cancelled,
given up, or begun (and then it has at most one of these outcomes). -/
theorem C52_futures (sched : List (Nat × Act)) (s : State) (h : run step init sched = some s) (n : Nat) :
    (∀ m, s.fut n = .result m ↔ .got n m ∈ s.log) ∧ (s.fut n = .cancelled ↔ .cancelled n ∈ s.log) ∧ (s.fut n = .gaveUp ↔ .gaveUp n ∈ s.log) ∧
      (s.fut n ≠ .unused ↔ .began n ∈ s.log) := by
  have hf := futs_run h
  refine ⟨hf.got n, hf.cancelled n, hf.gaveUp n, fun hu => (hf.began n).1 ?_, fun hb => hf.used n ((hf.began n).2 hb)⟩
  exact Nat.lt_of_not_le fun hle => hu (hf.fresh n hle)

/-! ## C53 -/

/-- A receive waits, a message is queued, and nobody cancelled: then a callback is scheduled, or a poster is about to schedule one, or the event loop is just looking. -/
theorem C53_wake_up (sched : List (Nat × Act)) (s : State) (n : Nat) (hs : loopAsks sched) (h : run step init sched = some s) (hn : s.fut n = .pending)
    (hq : s.queue ≠ []) (ht : s.token = false) : 0 < s.scheduled ∨ (∃ t, s.pc t = .sched) ∨ s.pc 0 ≠ .idle := by
  have hl := loopAll_run hs h
  by_cases h0 : s.pc 0 = .idle
  · rcases hl.loop.pend n hn with hc | hc
    · rcases hl.wake.wake (by rw [hc]; simp) hq ht with h | h | h
      · exact .inl h
      · exact .inr (.inl h)
      · rw [h0] at h; cases h
    · rw [h0] at hc; cases hc
  · exact .inr (.inr h0)

/-- When all is quiet, no receive waits while a message is queued. -/
theorem C53_quiescent (sched : List (Nat × Act)) (s : State) (n : Nat) (hs : loopAsks sched) (h : run step init sched = some s) (hq : Quiescent s)
    (ht : s.token = false) (hn : s.fut n = .pending) : s.queue = [] := by
  refine Classical.byContradiction fun hne => ?_
  rcases C53_wake_up sched s n hs h hn hne ht with h | ⟨t, h⟩ | h
  · rw [hq.2] at h; cases h
  · rw [hq.1 t] at h; cases h
  · exact h (hq.1 0)

/-- No deadlock, whatever the threads do: while some call is open, some open call can go on; when all calls are over, a scheduled callback can run. -/
theorem C53_no_deadlock (sched : List (Nat × Act)) (s : State) (h : run step init sched = some s) (hq : ¬ Quiescent s) :
    (∃ t s', s.pc t ≠ .idle ∧ step s (t, .go) = some s') ∨ ∃ s', step s (0, .callback) = some s' := by
  have ha := acc_run h
  by_cases hi : ∀ t, s.pc t = .idle
  · have : s.scheduled ≠ 0 := fun h0 => hq ⟨hi, h0⟩
    exact .inr ⟨{ s.at 0 .test with scheduled := s.scheduled - 1 }, by simp [step, hi 0, Nat.pos_of_ne_zero this]⟩
  · obtain ⟨t, ht⟩ := Classical.not_forall.1 hi
    obtain ⟨u, hu, hg⟩ := someone_goes ha ht
    exact .inl ⟨u, (Option.isSome_iff_exists.1 hg).imp fun s' h => ⟨hu, h⟩⟩

/-- No call takes more than twelve moves. -/
theorem C53_bounded (sched : List (Nat × Act)) (s : State) (h : run step init sched = some s) (t : Nat) : movesBy t sched ≤ 12 * callsBy t sched := by
  have := run_inv_sched (step := step) (fun p s => movesBy t p + left (s.pc t) ≤ 12 * callsBy t p)
    (fun p x c x' hi hc => by
      obtain ⟨h1, h2, h3, _⟩ := left_step t x c x' hc
      obtain ⟨u, a⟩ := c
      simp only [movesBy, callsBy, List.count_append, List.countP_append] at hi ⊢
      by_cases hu : u = t
      · subst hu
        by_cases ha : a = .go
        · subst ha
          have := h1 rfl
          have e1 : List.count (u, Act.go) [(u, Act.go)] = 1 := by simp
          have e2 : List.countP (fun c : Nat × Act => decide (c.1 = u ∧ c.2 ≠ .go)) [(u, .go)] = 0 := by simp
          omega
        · have := h2 rfl ha
          have e1 : List.count (u, Act.go) [(u, a)] = 0 := by simp [ha]
          have e2 : List.countP (fun c : Nat × Act => decide (c.1 = u ∧ c.2 ≠ .go)) [(u, a)] = 1 := by simp [ha]
          omega
      · have := h3 hu
        have e1 : List.count (t, Act.go) [(u, a)] = 0 := by simp [hu]
        have e2 : List.countP (fun c : Nat × Act => decide (c.1 = t ∧ c.2 ≠ .go)) [(u, a)] = 0 := by simp [hu]
        rw [this]; omega)
    [] (by simp [movesBy, callsBy, init, left]) sched h
  simp only [List.nil_append] at this
  omega

/-- the message is posted just after the receive looked: the callback delivers it -/
example : (run step init ([(0, .receive)] ++ List.replicate 7 (0, .go) ++ [(1, .post 7), (0, .go), (1, .go), (0, .callback)] ++ List.replicate 9 (0, .go))).map
    (fun s => (s.log, s.queue, s.scheduled, s.pc 0)) = some ([.began 0, .posted 7, .got 0 7], [], 0, .idle) := by decide +kernel

/-! ## C54 -/

/-- the claim of C52 for all schedules, also those where other threads call `post_and_async_reply` -/
def C54_full_statement : Prop :=
  ∀ (sched : List (Nat × Act)) (s : State), patient sched → run step init sched = some s → (∀ t, s.pc t = .idle) → posted s.log = delivered s.log ++ s.queue

/-- A receive waits; thread 1 asks and passes the test; the event loop delivers that message; thread 1, having posted another one before, takes the next message and has nobody to give it to. -/
def raceSched : List (Nat × Act) :=
  [(0, .receive)] ++ List.replicate 8 (0, .go) ++ [(2, .post 8), (2, .go), (1, .ask 7), (1, .go), (1, .go), (0, .callback)] ++ List.replicate 9 (0, .go) ++
    List.replicate 7 (1, .go)

theorem C54_full_statement_false : ¬ C54_full_statement := by
  intro hf
  have h1 : (run step init raceSched).map (fun s => (s.log, s.queue, s.pc 0, s.pc 1, s.pc 2)) =
      some ([.began 0, .posted 8, .posted 7, .got 0 8, .dropped 7], [], .idle, .idle, .idle) := by decide +kernel
  obtain ⟨s, hs, he⟩ := Option.map_eq_some_iff.1 h1
  obtain ⟨e1, e2, e3, e4, e5⟩ : s.log = _ ∧ s.queue = _ ∧ s.pc 0 = _ ∧ s.pc 1 = _ ∧ s.pc 2 = _ := by
    simp only [Prod.mk.injEq] at he; exact he
  have hidle : ∀ t, s.pc t = .idle := by
    intro t
    by_cases h0 : t = 0
    · rw [h0]; exact e3
    by_cases h1 : t = 1
    · rw [h1]; exact e4
    by_cases h2 : t = 2
    · rw [h2]; exact e5
    refine run_inv_on (step := step) (fun c : Nat × Act => c.1 ≠ t) (fun s => s.pc t = .idle) (fun s c s' hP h hc => ?_) rfl raceSched ?_ hs
    · rw [(left_step t s c s' hc).2.2.1 hP]; exact h
    · rintro ⟨u, a⟩ hm rfl
      simp [raceSched] at hm
      omega
  have := hf raceSched s (by intro t n h; simp [raceSched] at h) hs hidle
  rw [e1, e2] at this
  simp [posted, delivered] at this

/-- Whatever the threads do: what is delivered is a part of what was posted, in order (so nothing is delivered twice, and nothing overtakes), receives are served in order and
once each, and every message that was posted is delivered, dropped, in the hands of one thread, or in the queue.  Missing: that none is dropped. -/
theorem C54_in_order_partial (sched : List (Nat × Act)) (s : State) (h : run step init sched = some s) :
    (delivered s.log).Sublist (posted s.log) ∧ (returned s.log).Pairwise (· < ·) ∧
      ∃ inHand, inHand ≤ 1 ∧ ((∀ t, s.pc t = .idle) → inHand = 0) ∧ (posted s.log).length = (delivered s.log).length + drops s.log + inHand + s.queue.length := by
  have ha := acc_run h
  obtain ⟨hd, h1, h2, h3⟩ := in_hand ha
  refine ⟨?_, (ord_run h).sorted, hd.length, h1, fun hi => by rw [h2 hi]; rfl, ?_⟩
  · rw [h3]; exact (delivered_sublist_handled s.log).trans (List.sublist_append_left ..)
  · rw [h3, List.length_append, List.length_append, handled_length]; omega

/-- another thread asks while a receive waits: the calling thread delivers -/
example : (run step init ([(0, .receive)] ++ List.replicate 8 (0, .go) ++ [(1, .ask 7)] ++ List.replicate 9 (1, .go))).map
    (fun s => (s.log, s.queue, s.pc 1)) = some ([.began 0, .posted 7, .got 0 7], [], .idle) := by decide +kernel

/-- What is lost at most: two messages for every `post_and_async_reply` of another thread, and one for every receive given up. -/
theorem C54_losses_partial (sched : List (Nat × Act)) (s : State) (h : run step init sched = some s) :
    drops s.log ≤ givenUp s.log + 2 * asksElsewhere sched := drops_run h

/-- A receive waits; thread 1 asks and passes the test of the continuation; the event loop delivers that message; thread 1 takes the next one and sees that there is nobody; a new
receive begins and passes the test; thread 1 writes back that nobody waits: the new receive takes the third message and finds itself gone. -/
def doubleRaceSched : List (Nat × Act) :=
  [(0, .receive)] ++ List.replicate 8 (0, .go) ++ [(1, .ask 7), (1, .go), (1, .go), (2, .post 8), (2, .go), (2, .post 9), (2, .go), (0, .callback)] ++
    List.replicate 9 (0, .go) ++ List.replicate 4 (1, .go) ++ [(0, .receive)] ++ List.replicate 5 (0, .go) ++ List.replicate 3 (1, .go) ++
    List.replicate 7 (0, .go) ++ [(0, .callback), (0, .go), (0, .go), (2, .post 10), (2, .go), (0, .callback), (0, .go), (0, .go)]

set_option synthInstance.maxSize 1000 in
/-- The bound is reached: one ask of another thread, nobody gives up, nobody cancels, and two messages are lost.  Moreover the second receive waits though a message is queued and
nothing is going on, and never gets any, whatever happens from then on. -/
theorem C54_two_lost_one_stuck : ∃ s, run step init doubleRaceSched = some s ∧ patient doubleRaceSched ∧ asksElsewhere doubleRaceSched = 1 ∧
    drops s.log = 2 ∧ Quiescent s ∧ s.token = false ∧ s.queue = [10] ∧ s.fut 1 = .pending ∧
    ∀ (sched' : List (Nat × Act)) (s' : State), run step s sched' = some s' → ∀ m, .got 1 m ∉ s'.log := by
  have h1 : (run step init doubleRaceSched).map (fun s => ((s.log, s.queue, s.pc 0, s.pc 1, s.pc 2), s.scheduled, s.token, s.fut 1, s.cont, s.next)) =
      some (([.began 0, .posted 7, .posted 8, .posted 9, .got 0 7, .began 1, .dropped 8, .dropped 9, .posted 10], [10], .idle, .idle, .idle), 0, false,
        .pending, none, 2) := by decide +kernel
  obtain ⟨s, hs, he⟩ := Option.map_eq_some_iff.1 h1
  obtain ⟨⟨e1, e2, e3, e4, e5⟩, e6, e7, e8, e9, e10⟩ : (s.log = _ ∧ s.queue = _ ∧ s.pc 0 = _ ∧ s.pc 1 = _ ∧ s.pc 2 = _) ∧ s.scheduled = _ ∧ s.token = _ ∧
      s.fut 1 = _ ∧ s.cont = _ ∧ s.next = _ := by
    simp only [Prod.mk.injEq] at he; exact he
  have hidle : ∀ t, s.pc t = .idle := by
    intro t
    by_cases h0 : t = 0
    · rw [h0]; exact e3
    by_cases h1 : t = 1
    · rw [h1]; exact e4
    by_cases h2 : t = 2
    · rw [h2]; exact e5
    refine run_inv_on (step := step) (fun c : Nat × Act => c.1 ≠ t) (fun s => s.pc t = .idle) (fun s c s' hP h hc => ?_) rfl doubleRaceSched ?_ hs
    · rw [(left_step t s c s' hc).2.2.1 hP]; exact h
    · rintro ⟨u, a⟩ hm rfl
      simp [doubleRaceSched] at hm
      omega
  refine ⟨s, hs, by intro t n h; simp [doubleRaceSched] at h, by decide +kernel, by rw [e1]; rfl, ⟨hidle, e6⟩, e7, e2, e8, fun sched' s' hr m hm => ?_⟩
  have hgot := ((C52_futures (doubleRaceSched ++ sched') s' (by rw [run_append, hs]; exact hr) 1).1 m).2 hm
  have := abandoned_run (acc_run hs) (n := 1) ⟨by rw [e10]; decide, by rw [e9]; simp, by rw [e3]; simp, fun t m => by rw [hidle t]; simp,
    fun t m => by rw [hidle t]; simp⟩ sched' hr m hgot
  rw [e8] at this
  cases this

/-! ## C65 giving up -/

/-- the claim: a receive that is given up (by a timeout, say) costs no message -/
def C65_full_statement : Prop :=
  ∀ (sched : List (Nat × Act)) (s : State), loopAsks sched → run step init sched = some s → (∀ t, s.pc t = .idle) → posted s.log = delivered s.log ++ s.queue

/-- a receive is given up, a message is posted: it is lost -/
def timeoutSched : List (Nat × Act) :=
  [(0, .receive)] ++ List.replicate 8 (0, .go) ++ [(0, .giveUp 0), (0, .post 7), (0, .go), (0, .callback)] ++ List.replicate 9 (0, .go)

theorem C65_full_statement_false : ¬ C65_full_statement := by
  intro hf
  have h1 : (run step init timeoutSched).map (fun s => (s.log, s.queue, s.pc 0)) =
      some ([.began 0, .gaveUp 0, .posted 7, .dropped 7], [], .idle) := by decide +kernel
  obtain ⟨s, hs, he⟩ := Option.map_eq_some_iff.1 h1
  obtain ⟨e1, e2, e3⟩ : s.log = _ ∧ s.queue = _ ∧ s.pc 0 = _ := by
    simp only [Prod.mk.injEq] at he; exact he
  have hidle : ∀ t, s.pc t = .idle := by
    intro t
    by_cases h0 : t = 0
    · rw [h0]; exact e3
    refine run_inv_on (step := step) (fun c : Nat × Act => c.1 ≠ t) (fun s => s.pc t = .idle) (fun s c s' hP h hc => ?_) rfl timeoutSched ?_ hs
    · rw [(left_step t s c s' hc).2.2.1 hP]; exact h
    · rintro ⟨u, a⟩ hm rfl
      simp [timeoutSched] at hm
      omega
  have := hf timeoutSched s (by intro t n h; simp [timeoutSched] at h) hs hidle
  rw [e1, e2] at this
  simp [posted, delivered] at this

/-- also: a receive that follows one given up raises -/
theorem C65_next_receive_raises : (run step init ([(0, .receive)] ++ List.replicate 8 (0, .go) ++ [(0, .giveUp 0), (0, .receive), (0, .go)])).map (·.log) =
    some [.began 0, .gaveUp 0, .refused] := by decide +kernel

/-- At most one message is lost for each receive given up. -/
theorem C65_at_most_one_each_partial (sched : List (Nat × Act)) (s : State) (hs : loopAsks sched) (h : run step init sched = some s) :
    drops s.log ≤ givenUp s.log ∧ (delivered s.log).Sublist (posted s.log) :=
  ⟨(loopAll_run hs h).loop.drops1, (C54_in_order_partial sched s h).1⟩

/-- one receive given up, one message lost -/
example : ∃ s, run step init timeoutSched = some s ∧ loopAsks timeoutSched ∧ posted s.log = [7] ∧ drops s.log = 1 ∧ givenUp s.log = 1 := by
  have h1 : (run step init timeoutSched).map (·.log) = some [.began 0, .gaveUp 0, .posted 7, .dropped 7] := by decide +kernel
  obtain ⟨s, hs, he⟩ := Option.map_eq_some_iff.1 h1
  exact ⟨s, hs, by intro t n h; simp [timeoutSched] at h, by rw [he]; rfl, by rw [he]; rfl, by rw [he]; rfl⟩

/-! ## C66 cancelling the token -/

/-- Once the token is cancelled and the calls under way are over, nothing is delivered any more, whatever the threads do. -/
theorem C66_no_delivery (sched' : List (Nat × Act)) (a b : State) (ht : a.token = true) (hi : ∀ t, a.pc t = .idle)
    (hb : run step a sched' = some b) : delivered b.log = delivered a.log :=
  (run_inv (Shut (delivered a.log)) (shut_step _) ⟨ht, fun t => by rw [hi t]; rfl, rfl⟩ sched' hb).same

/-- When in addition a message has been posted since then and all is quiet again, no receive waits: it was cancelled. -/
theorem C66_receive_ends (sched sched' : List (Nat × Act)) (a b : State) (n : Nat) (hs : loopAsks sched) (hs' : loopAsks sched')
    (ha : run step init sched = some a) (ht : a.token = true) (hi : ∀ t, a.pc t = .idle) (hb : run step a sched' = some b)
    (hp : (posted a.log).length < (posted b.log).length) (hq : Quiescent b) : b.fut n ≠ .pending := by
  have hA := aft_run (k := (posted a.log).length) hs' (loopAll_run hs ha) ⟨ht, by rw [hi 0]; rfl, fun h => absurd h (Nat.lt_irrefl _)⟩ hb
  intro hn
  rcases hA.aft hp n hn with h | ⟨t, h⟩ | h
  · rw [hq.2] at h; cases h
  · rw [hq.1 t] at h; cases h
  · rw [hq.1 0] at h; cases h

/-- the hypotheses of `C66_no_delivery` and `C66_receive_ends` -/
example : ∃ a b, run step init ([(0, .receive)] ++ List.replicate 8 (0, .go) ++ [(1, .cancelToken)]) = some a ∧
    run step a ([(1, .post 7), (1, .go), (0, .callback)] ++ List.replicate 4 (0, .go)) = some b ∧
    a.token = true ∧ (∀ t, a.pc t = .idle) ∧ (posted a.log).length < (posted b.log).length ∧ Quiescent b ∧ a.fut 0 = .pending ∧ b.fut 0 ≠ .pending := by
  refine ⟨_, _, rfl, rfl, rfl, fun t => ?_, by decide, ⟨fun t => ?_, rfl⟩, rfl, by decide⟩
  · rcases t with _ | _ | t <;> rfl
  · rcases t with _ | _ | t <;> rfl

example : (run step init ([(0, .receive)] ++ List.replicate 8 (0, .go) ++ [(1, .cancelToken), (1, .post 7), (1, .go), (0, .callback)] ++ List.replicate 4 (0, .go))).map
    (fun s => (s.log, s.queue, s.pc 0)) = some ([.began 0, .posted 7, .cancelled 0], [7], .idle) := by decide +kernel

end mailbox

/-! ## C55 replies -/

section ask

open Threads Lemmas Lemmas.Ask Spec.Ask Expression.Ask

/-- the claim: once all is quiet and the asker waits, the asker has got the first reply, whatever it is -/
def C55_full_statement : Prop :=
  ∀ (sched : List (Nat × Act)) (s : State) (r : Option Nat) (rs : List (Option Nat)), run step init sched = some s → Idle s → s.asked = true →
    replies s.log = r :: rs → outcomes s.log = [r]

theorem idle_of {sched : List (Nat × Act)} {s : State} (h : run step init sched = some s) (h0 : s.pc 0 = .idle) (hs : ∀ c ∈ sched, c.1 = 0) : Idle s := by
  intro t
  by_cases ht : t = 0
  · rw [ht]; exact h0
  · exact (run_inv_on (fun c : Nat × Act => c.1 = 0) Sq sq_step sq_init sched hs h).others t ht

/-- A reply `None` never reaches the asker. -/
theorem C55_full_statement_false : ¬ C55_full_statement := by
  intro hf
  have h1 : (run step init [(0, .wait), (0, .go), (0, .go), (0, .reply none), (0, .go), (0, .go)]).map (fun s => (s.log, s.asked, s.pc 0)) =
      some ([.waiting, .replied none], true, .idle) := by decide +kernel
  obtain ⟨s, hs, he⟩ := Option.map_eq_some_iff.1 h1
  obtain ⟨e1, e2, e3⟩ : s.log = _ ∧ s.asked = _ ∧ s.pc 0 = _ := by
    simp only [Prod.mk.injEq] at he; exact he
  have := hf _ s none [] hs (idle_of hs e3 (by simp)) e2 (by rw [e1]; rfl)
  rw [e1] at this
  cases this

/-- A second way to fail: of two replies sent before the asker waits, the last one counts. -/
theorem C55_last_early_reply_wins : (run step init [(0, .reply (some 1)), (0, .go), (0, .go), (0, .go), (0, .reply (some 2)), (0, .go), (0, .go), (0, .go),
    (0, .wait), (0, .go), (0, .go), (0, .go), (0, .go), (0, .go)]).map (fun s => (s.log, s.pc 0)) =
      some ([.replied (some 1), .replied (some 2), .waiting, .completed (some 2)], .idle) := by decide +kernel

/-- In every interleaving the asker gets at most one reply, and only one that was sent. -/
theorem C55_at_most_once_partial (sched : List (Nat × Act)) (s : State) (h : run step init sched = some s) :
    (outcomes s.log).length ≤ 1 ∧ ∀ r ∈ outcomes s.log, r ∈ replies s.log := by
  have hi := inv_run h
  cases hf : s.future with
  | none => rw [hi.once1 hf]; simp
  | some r =>
    rw [hi.once2 r hf]
    refine ⟨by simp, fun r' hr => ?_⟩
    rw [List.mem_singleton.1 hr]; exact hi.given r hf

/-- What the asker's future holds is the outcome logged. -/
theorem C55_future_partial (sched : List (Nat × Act)) (s : State) (h : run step init sched = some s) (r : Option Nat) :
    s.future = some r ↔ outcomes s.log = [r] := by
  have hi := inv_run h
  cases hf : s.future with
  | none => rw [hi.once1 hf]; simp
  | some r' => rw [hi.once2 r' hf]; simp

/-- In every interleaving of repliers and asker: when replies were sent, none of them `None`, and the asker waits, the asker gets one of them, as soon as all is quiet. -/
theorem C55_completes_partial (sched : List (Nat × Act)) (s : State) (h : run step init sched = some s) (hq : Idle s) (hw : s.asked = true)
    (hr : replies s.log ≠ []) (hn : none ∉ replies s.log) : ∃ r ∈ replies s.log, outcomes s.log = [r] := by
  have hi := inv_run h
  cases hf : s.future with
  | some r => exact ⟨r, hi.given r hf, hi.once2 r hf⟩
  | none =>
    exfalso
    have hc : s.continuation = true := by
      rcases hi.cont hw with h | h
      · exact h
      · rw [hq 0] at h; cases h
    have hres : s.result ≠ none := by
      rcases hi.some1 hr with h | h | ⟨t, r, h⟩
      · exact absurd h hn
      · exact h
      · rw [hq t] at h; cases h
    obtain ⟨t, ht⟩ := hi.wake hn hres hc hf
    rw [hq t] at ht; cases ht

/-- In particular a single reply that is not `None` always arrives. -/
theorem C55_single_reply_partial (sched : List (Nat × Act)) (s : State) (v : Nat) (h : run step init sched = some s) (hq : Idle s) (hw : s.asked = true)
    (hr : replies s.log = [some v]) : outcomes s.log = [some v] := by
  obtain ⟨r, h1, h2⟩ := C55_completes_partial sched s h hq hw (by rw [hr]; simp) (by rw [hr]; simp)
  rw [hr] at h1
  rw [h2, List.mem_singleton.1 h1]

/-- If the asker waits before the first reply, and one thread sends all replies: the first one that is not `None` counts, the later ones are ignored. -/
theorem C55_first_reply_partial (sched sched' : List (Nat × Act)) (a b : State) (t : Nat) (ha : run step init sched = some a) (hi : Idle a) (hw : a.asked = true)
    (hr : replies a.log = []) (ht : ∀ u r, (u, .reply r) ∈ sched' → u = t) (hb : run step a sched' = some b) (hq : b.pc t = .idle) :
    outcomes b.log = ((replies b.log).find? (·.isSome)).toList := by
  have hA := inv_run ha
  have hres : a.result = none := by
    cases h : a.result with
    | none => rfl
    | some v => have := hA.result v h; rw [hr] at this; cases this
  have hfut : a.future = none := by
    cases h : a.future with
    | none => rfl
    | some r => have := hA.given r h; rw [hr] at this; cases this
  have hcont : a.continuation = true := by
    rcases hA.cont hw with h | h
    · exact h
    · rw [hi 0] at h; cases h
  have hone : One t a := by
    refine ⟨hw, hcont, fun u _ => hi u, ?_, ?_, ?_, ?_, ?_⟩
    · rw [hi t]; simp
    · rw [hi t]; simp
    · rw [hi t]; simp
    · rw [hi t]; simp
    · rw [hi t, hr, hfut]; rfl
  have hB := run_inv_on (fun c : Nat × Act => ∀ r, c.2 = .reply r → c.1 = t) (One t) (one_step t) hone sched'
    (by rintro ⟨u, x⟩ hm r rfl; exact ht u r hm) hb
  have hI := inv_run (sched := sched ++ sched') (by rw [run_append, ha]; exact hb)
  have he := hB.expected
  rw [hq] at he
  have hs : sequentialOutcome [] (replies b.log) = ((replies b.log).find? (·.isSome)).toList := rfl
  rw [← hs, he]
  cases hf : b.future with
  | none => rw [hI.once1 hf]; rfl
  | some r => rw [hI.once2 r hf]; rfl

/-- If everything happens on the event loop: exactly what the asker gets. -/
theorem C55_sequential_partial (sched : List (Nat × Act)) (s : State) (h : run step init sched = some s) (h0 : ∀ c ∈ sched, c.1 = 0) (hq : s.pc 0 = .idle)
    (hw : .waiting ∈ s.log) : outcomes s.log = sequentialOutcome (repliesBefore s.log) (repliesAfter s.log) := by
  have hS := run_inv_on (fun c : Nat × Act => c.1 = 0) Sq sq_step sq_init sched h0 h
  have hI := inv_run h
  have hc : s.continuation = true := by
    cases hc : s.continuation with
    | true => rfl
    | false => exact absurd hw (hS.cont2 hc)
  rw [hS.expected hc, hq]
  cases hf : s.future with
  | none => rw [hI.once1 hf]; rfl
  | some r => rw [hI.once2 r hf]; rfl

/-- replier and asker interleave: the replier stores its value and looks for the asker, who has not come yet; the asker then finds the value -/
example : (run step init [(1, .reply (some 5)), (1, .go), (1, .go), (0, .wait), (1, .go), (0, .go), (0, .go), (0, .go), (0, .go), (0, .go)]).map
    (fun s => (s.log, s.pc 0, s.pc 1)) = some ([.replied (some 5), .waiting, .completed (some 5)], .idle, .idle) := by decide +kernel

end ask

end Expression.Props
