import Verif.Lemmas.AgentMore
import Verif.Spec.Worker

/-! # Invariants of an agent with an arbitrary coroutine as body -/

namespace Expression.Lemmas.Worker

open Threads Lemmas.Mailbox Spec.Mailbox Expression.Worker Spec.Worker Lemmas.Agent

/-! ## the mailbox once its token is cancelled -/

/-- a receive that waits will soon be cancelled, and nobody is past the test of the token -/
structure Soon (s : Mailbox.State) : Prop where
  past : s.token = true → past (s.pc 0) = false
  pend : s.token = true → ∀ n, s.fut n = .pending → coming (s.pc 0) = true

theorem soon_init : Soon Mailbox.init := by constructor <;> simp [Mailbox.init]

open Expression.Mailbox in
set_option maxHeartbeats 4000000 in
theorem soon_step (s : Mailbox.State) (c : Nat × Mailbox.Act) (s' : Mailbox.State) (hP : Allowed c) (hn : c.2 ≠ .cancelToken) (hl : LoopAll s) (h : Soon s)
    (hc : Mailbox.step s c = some s') : Soon s' := by
  obtain ⟨t, a⟩ := c
  obtain ⟨hpast, hpend⟩ := h
  obtain ⟨c1, c2, c3, c4⟩ := hl.canc
  have zero : s.pc t ≠ .idle → s.pc t ≠ .sched → t = 0 := by
    intro h1 h2
    by_cases ht : t = 0
    · exact ht
    · rcases hl.loop.others t ht with h | h
      · exact absurd h h1
      · exact absurd h h2
  clear hl
  have u0 : ∀ p, upd s.pc 0 p 0 = p := fun p => upd_same ..
  have u1 : ∀ p, t ≠ 0 → upd s.pc t p 0 = s.pc 0 := fun p h => upd_other _ _ (Ne.symm h)
  simp only [Allowed] at hP
  have f0 : ∀ n f, upd s.fut n f n = f := fun n f => upd_same ..
  have f1 : ∀ n n' f, n' ≠ n → upd s.fut n f n' = s.fut n' := fun n n' f h => upd_other _ _ h
  cases a <;> simp only [Mailbox.step] at hc
  case cancelToken => exact absurd rfl hn
  case go =>
    split at hc
    · cases hc
    · rename_i hs
      cases hc
      constructor <;> simp only [State.at, State.say] <;> grind [past, coming, holds]
    all_goals rename_i hs
    all_goals obtain rfl : t = 0 := zero (by rw [hs]; simp) (by rw [hs]; simp)
    all_goals try (split at hc)
    all_goals try (cases hc; done)
    all_goals cases hc
    all_goals constructor <;> simp only [State.at, State.say] <;> grind [past, coming, holds]
  all_goals try (split at hc)
  all_goals try (cases hc; done)
  all_goals cases hc
  all_goals constructor <;> simp only [State.at, State.say] <;> grind [past, coming, holds]

open Expression.Mailbox in
/-- nothing is given to anybody then, and nothing leaves the queue -/
theorem shut_step' (s : Mailbox.State) (t : Nat) (s' : Mailbox.State) (hl : LoopAll s) (h : Soon s) (ht : s.token = true)
    (hc : Mailbox.step s (t, .go) = some s') : delivered s'.log = delivered s.log ∧ drops s'.log = drops s.log ∧ (∀ n m, s'.fut n = .result m → s.fut n = .result m) := by
  have hp := h.past ht
  have zero : s.pc t ≠ .idle → s.pc t ≠ .sched → t = 0 := by
    intro h1 h2
    by_cases ht : t = 0
    · exact ht
    · rcases hl.loop.others t ht with h | h
      · exact absurd h h1
      · exact absurd h h2
  simp only [Mailbox.step] at hc
  split at hc
  · cases hc
  · rename_i hs; cases hc; exact ⟨rfl, rfl, fun _ _ h => h⟩
  all_goals rename_i hs
  all_goals obtain rfl : t = 0 := zero (by rw [hs]; simp) (by rw [hs]; simp)
  all_goals rw [hs] at hp
  all_goals try (cases hp; done)
  all_goals try (split at hc)
  all_goals try (cases hc; done)
  all_goals cases hc
  all_goals refine ⟨by simp [State.at, State.say, delivered_append, delivered], by simp [State.at, State.say, drops_append, drops], ?_⟩
  all_goals
    intro n m
    simp only [State.at, State.say, upd_apply]
    try split
    all_goals simp

/-! ## the invariant -/

variable {S M : Type}

/-- the message that waits for the body in its future -/
def inbox (s : State S M) : List Nat :=
  match s.task, s.intr with
  | .waiting n _, none =>
    match s.mb.fut n with
    | .result m => [m]
    | _ => []
  | _, _ => []

/-- holds always -/
structure Inv (s : State S M) : Prop where
  all : LoopAll s.mb
  futs : Futs s.mb
  soon : Soon s.mb
  num : posted s.mb.log = List.range s.sent.length
  wait : ∀ n w, s.task = .waiting n w → n ≤ s.mb.next
  check : s.mb.pc 0 = .rCheck → (∃ w, s.task = .waiting s.mb.next w) ∧ s.intr = none
  pend : ∀ k, s.mb.fut k = .pending → (∃ w, s.task = .waiting k w) ∧ s.intr = none
  quiet : ∀ n w, s.task = .waiting n w → s.mb.fut n = .unused → s.intr = none
  sub : (s.received ++ inbox s).Sublist (delivered s.mb.log)
  runs : s.st = none → s.task = .created ∨ ∃ r, s.task = .ended r
  tok : s.mb.token = true → inbox s = []
  tmo : s.intr = some .timeout → ∃ n w, s.task = .waiting n w

theorem inv_init : Inv (init : State S M) := by
  constructor <;> try (simp [init, Mailbox.init, inbox, delivered, posted]; done)
  · exact loopAll_init
  · exact futs_init
  · exact soon_init

/-! ## steps of the mailbox -/

theorem inbox_not_waiting {s : State S M} (h : ∀ n w, s.task ≠ .waiting n w) : inbox s = [] := by
  unfold inbox
  split
  · rename_i ht _; exact absurd ht (h _ _)
  · rfl

theorem inbox_intr {s : State S M} {i : Intr} (h : s.intr = some i) : inbox s = [] := by
  unfold inbox
  split
  · rename_i hi; rw [h] at hi; cases hi
  · rfl

theorem inbox_no_result {s : State S M} (h : ∀ n w, s.task = .waiting n w → ∀ m, s.mb.fut n ≠ .result m) : inbox s = [] := by
  unfold inbox
  split
  · rename_i n w ht hi
    split
    · rename_i m hf; exact absurd hf (h n w ht m)
    · rfl
  · rfl

/-- changes of other parts -/
theorem inbox_congr {s s' : State S M} (h1 : s'.task = s.task) (h2 : s'.intr = s.intr) (h3 : s'.mb.fut = s.mb.fut) : inbox s' = inbox s := by
  unfold inbox
  rw [h1, h2, h3]

theorem result_token {s : State S M} {mb : Mailbox.State} (h : Inv s) (ht : s.mb.token = true) (hres : ∀ n m, mb.fut n = .result m → s.mb.fut n = .result m) :
    inbox { s with mb := mb } = [] := by
  have h0 := h.tok ht
  unfold inbox at h0 ⊢
  simp only
  split
  · rename_i n w ht hi
    rw [ht, hi] at h0
    simp only at h0
    split
    · rename_i m hf
      rw [hres n m hf] at h0
      cases h0
    · rfl
  · rfl

theorem inv_mb {s : State S M} {c : Nat × Mailbox.Act} {mb : Mailbox.State} (xs : List (M × Bool)) (chan : Nat → Ask.State) (h : Inv s) (hP : Allowed c)
    (hc : Mailbox.step s.mb c = some mb) (hv : View s.mb mb) (ht : c.2 ≠ .cancelToken) (hnum : posted mb.log = List.range (s.sent ++ xs).length)
    (hres : s.mb.token = true → ∀ n m, mb.fut n = .result m → s.mb.fut n = .result m)
    (hdel : s.mb.token = true → delivered mb.log = delivered s.mb.log) (hnext : s.mb.next ≤ mb.next)
    (hpend : ∀ k, mb.fut k = .pending → s.mb.fut k = .pending ∨ (s.mb.pc 0 = .rCheck ∧ k = s.mb.next)) (hun : ∀ k, mb.fut k = .unused → s.mb.fut k = .unused)
    (hchk : mb.pc 0 = .rCheck → s.mb.pc 0 = .rCheck ∧ mb.next = s.mb.next) :
    Inv { s with mb := mb, sent := s.sent ++ xs, chan := chan } := by
  have htok := token_step ht hc
  obtain ⟨h1, h2⟩ := all_step hP ⟨h.all, h.futs⟩ hc
  refine ⟨h1, h2, soon_step _ _ _ hP ht h.all h.soon hc, hnum, fun n w hn => Nat.le_trans (h.wait n w hn) hnext, ?_, ?_, ?_, ?_, h.runs, ?_, h.tmo⟩
  · intro hk
    obtain ⟨e1, e2⟩ := hchk hk
    simp only [e2]
    exact h.check e1
  · intro k hk
    rcases hpend k hk with h3 | ⟨h3, rfl⟩
    · exact h.pend k h3
    · exact h.check h3
  · intro n w hn hf
    exact h.quiet n w hn (hun n hf)
  · cases htk : s.mb.token with
    | true =>
      have h3 : inbox { s with mb := mb, sent := s.sent ++ xs, chan := chan } = [] := result_token h htk (hres htk)
      rw [h3, List.append_nil]
      simp only [hdel htk]
      exact (List.sublist_append_left _ _).trans h.sub
    | false =>
      cases hv with
      | same fut next del chk ref => rw [inbox_congr (s := s) (s' := { s with mb := mb, sent := s.sent ++ xs, chan := chan }) rfl rfl fut]; simp only [del]; exact h.sub
      | began chk cont fut next del pc ref =>
        have h3 : inbox { s with mb := mb, sent := s.sent ++ xs, chan := chan } = [] := by
          obtain ⟨⟨w, e1⟩, e2⟩ := h.check chk
          unfold inbox
          simp only [e1, e2, fut, upd_same]
        rw [h3, List.append_nil]
        simp only [del]
        exact (List.sublist_append_left _ _).trans h.sub
      | refused chk cont =>
        obtain ⟨⟨w, e1⟩, e2⟩ := h.check chk
        have hfut : mb.fut = s.mb.fut ∧ delivered mb.log = delivered s.mb.log := by
          obtain ⟨u, a⟩ := c
          cases a <;> simp only [Mailbox.step] at hc
          case go =>
            by_cases hu : u = 0
            · subst hu
              simp only [chk, cont, if_false] at hc
              cases hc
              exact ⟨rfl, by simp [Mailbox.State.at, Mailbox.State.say, delivered_append, delivered]⟩
            · rcases h.all.loop.others u hu with h5 | h5
              · simp [h5] at hc
              · simp only [h5] at hc; cases hc; exact ⟨rfl, rfl⟩
          case giveUp n =>
            split at hc
            · rename_i h5; rw [h5.1, chk] at h5; cases h5.2.1
            · cases hc
          case receive =>
            split at hc
            · rename_i h5; rw [h5.1, chk] at h5; cases h5.2
            · cases hc
          all_goals try (split at hc)
          all_goals try (cases hc; done)
          all_goals cases hc
          all_goals exact ⟨rfl, by simp [Mailbox.State.at, Mailbox.State.say, delivered_append, delivered]⟩
        rw [inbox_congr (s := s) (s' := { s with mb := mb, sent := s.sent ++ xs, chan := chan }) rfl rfl hfut.1]; simp only [hfut.2]; exact h.sub
      | got n m hp fut next del chk ref =>
        obtain ⟨⟨w, e1⟩, e2⟩ := h.pend n hp
        have h3 : inbox { s with mb := mb, sent := s.sent ++ xs, chan := chan } = [m] := by
          unfold inbox
          simp only [e1, e2, fut, upd_same]
        have h4 : inbox s = [] := by
          unfold inbox
          simp only [e1, e2, hp]
        have := h.sub
        rw [h4, List.append_nil] at this
        simp only [h3, del]
        exact this.append_right _
      | cancelled tk _ _ => rw [htk] at tk; cases tk
  · intro hk
    exact result_token h (htok ▸ hk) (hres (htok ▸ hk))

/-- posting, asking, callbacks, going on -/
theorem inv_call {s : State S M} {c : Nat × Mailbox.Act} {mb : Mailbox.State} (xs : List (M × Bool)) (chan : Nat → Ask.State) (h : Inv s) (hP : Allowed c)
    (hk : (∃ m, c.2 = .post m) ∨ (∃ m, c.2 = .ask m) ∨ c.2 = .callback) (hc : Mailbox.step s.mb c = some mb) (hnum : posted mb.log = List.range (s.sent ++ xs).length) :
    Inv { s with mb := mb, sent := s.sent ++ xs, chan := chan } := by
  have hv := call_view hk hc
  have hne : c.2 ≠ .cancelToken := by rcases hk with ⟨m, h⟩ | ⟨m, h⟩ | h <;> rw [h] <;> simp
  have h1 : mb.fut = s.mb.fut ∧ mb.next = s.mb.next ∧ delivered mb.log = delivered s.mb.log ∧ (mb.pc 0 = .rCheck → s.mb.pc 0 = .rCheck) := by
    obtain ⟨t, a⟩ := c
    have h0 : ∀ p, p ≠ .rCheck → upd s.mb.pc t p 0 = .rCheck → s.mb.pc 0 = .rCheck := by
      intro p hp
      rw [upd_apply]
      split
      · exact fun h => absurd h hp
      · exact fun h => h
    simp only at hk
    rcases hk with ⟨m, rfl⟩ | ⟨m, rfl⟩ | rfl
    all_goals
      simp only [Mailbox.step] at hc
      split at hc <;> cases hc
      exact ⟨rfl, rfl, by simp [Mailbox.State.at, Mailbox.State.say, delivered_append, delivered], h0 _ (by simp)⟩
  obtain ⟨e1, e2, e3, e4⟩ := h1
  exact inv_mb xs chan h hP hc hv hne hnum (fun _ n m hf => by rwa [e1] at hf) (fun _ => e3) (by rw [e2]; exact Nat.le_refl _)
    (fun k hk => .inl (by rwa [e1] at hk)) (fun k hk => by rwa [e1] at hk) (fun hk => ⟨e4 hk, e2⟩)

open Expression.Mailbox in
theorem pending_go' {s s' : Mailbox.State} {t : Nat} (hl : LoopAll s) (hc : Mailbox.step s (t, .go) = some s') :
    (∀ k, s'.fut k = .pending → s.fut k = .pending ∨ (s.pc 0 = .rCheck ∧ k = s.next)) ∧ (∀ k, s'.fut k = .unused → s.fut k = .unused) ∧
      (s'.pc 0 = .rCheck → s.pc 0 = .rCheck ∧ s'.next = s.next) := by
  have zero : s.pc t ≠ .idle → s.pc t ≠ .sched → t = 0 := by
    intro h1 h2
    by_cases ht : t = 0
    · exact ht
    · rcases hl.loop.others t ht with h | h
      · exact absurd h h1
      · exact absurd h h2
  simp only [Mailbox.step] at hc
  split at hc
  · cases hc
  · rename_i hs
    cases hc
    refine ⟨fun k hk => .inl hk, fun k hk => hk, ?_⟩
    simp only [State.at, upd_apply]
    split
    · simp
    · exact fun h => ⟨h, trivial⟩
  all_goals rename_i hs
  all_goals obtain rfl : t = 0 := zero (by rw [hs]; simp) (by rw [hs]; simp)
  all_goals try (split at hc)
  all_goals try (cases hc; done)
  all_goals cases hc
  all_goals refine ⟨?_, ?_, by simp [State.at, State.say]⟩
  all_goals
    intro k hk
    simp only [State.at, State.say, upd_apply] at hk
    try split at hk
    all_goals first
      | exact .inl hk
      | exact hk
      | exact .inr ⟨hs, ‹_›⟩
      | cases hk

theorem inv_go {s : State S M} {t : Nat} {mb : Mailbox.State} (h : Inv s) (hc : Mailbox.step s.mb (t, .go) = some mb) : Inv { s with mb := mb } := by
  have h1 := inv_mb [] s.chan h (by intro m hm; cases hm) hc (go_view h.all hc) (by simp) (by rw [posted_go hc, h.num]; simp)
    (fun ht => (shut_step' _ _ _ h.all h.soon ht hc).2.2) (fun ht => (shut_step' _ _ _ h.all h.soon ht hc).1) (next_go hc)
    (pending_go' h.all hc).1 (pending_go' h.all hc).2.1 (pending_go' h.all hc).2.2
  simpa using h1

/-! ## turns of the body -/

/-- what replying leaves alone -/
theorem reply_same (s : State S M) (k : Nat) (r : Option Nat) :
    (reply s k r).mb = s.mb ∧ (reply s k r).sent = s.sent ∧ (reply s k r).task = s.task ∧ (reply s k r).intr = s.intr ∧ (reply s k r).st = s.st ∧
      (reply s k r).received = s.received := by
  unfold reply
  split <;> exact ⟨rfl, rfl, rfl, rfl, rfl, rfl⟩

theorem replies_same (rs : List (Nat × Option Nat)) (s : State S M) :
    let s' := rs.foldl (fun s r => reply s r.1 r.2) s
    s'.mb = s.mb ∧ s'.sent = s.sent ∧ s'.task = s.task ∧ s'.intr = s.intr ∧ s'.st = s.st ∧ s'.received = s.received := by
  induction rs generalizing s with
  | nil => exact ⟨rfl, rfl, rfl, rfl, rfl, rfl⟩
  | cons r rs ih =>
    obtain ⟨a1, a2, a3, a4, a5, a6⟩ := reply_same s r.1 r.2
    obtain ⟨b1, b2, b3, b4, b5, b6⟩ := ih (reply s r.1 r.2)
    exact ⟨b1.trans a1, b2.trans a2, b3.trans a3, b4.trans a4, b5.trans a5, b6.trans a6⟩

/-- what a turn leaves alone -/
theorem turn_same (s : State S M) (t : Turn S) :
    (turn s t).sent = s.sent ∧ (turn s t).intr = s.intr ∧ (turn s t).received = s.received ∧ (turn s t).mb.log = s.mb.log ∧ (turn s t).mb.fut = s.mb.fut ∧
      (turn s t).mb.next = s.mb.next ∧ (turn s t).mb.token = s.mb.token ∧ (turn s t).mb.queue = s.mb.queue ∧ (turn s t).mb.owner = s.mb.owner ∧ (turn s t).st = some t.state := by
  obtain ⟨b1, b2, b3, b4, b5, b6⟩ := replies_same t.replies s
  have hm : ∀ mb, Mailbox.step s.mb (0, .receive) = some mb → mb.log = s.mb.log ∧ mb.fut = s.mb.fut ∧ mb.next = s.mb.next ∧ mb.token = s.mb.token ∧ mb.queue = s.mb.queue ∧ mb.owner = s.mb.owner := by
    intro mb h
    simp only [Mailbox.step] at h
    split at h <;> cases h
    exact ⟨rfl, rfl, rfl, rfl, rfl, rfl⟩
  unfold turn
  simp only at b1 b2 b3 b4 b5 b6 ⊢
  split
  · refine ⟨b2, b4, b6, ?_⟩
    simp only
    cases h : Mailbox.step s.mb (0, .receive) with
    | none => simp
    | some mb => simpa using hm mb h
  · simp [b1, b2, b4, b6]
  · simp [b1, b2, b4, b6]

/-- what holds when the body runs -/
structure Pre (s : State S M) : Prop where
  all : LoopAll s.mb
  futs : Futs s.mb
  soon : Soon s.mb
  num : posted s.mb.log = List.range s.sent.length
  idle : s.mb.pc 0 = .idle
  nopend : ∀ k, s.mb.fut k ≠ .pending
  intr : s.intr = none
  sub : s.received.Sublist (delivered s.mb.log)

theorem inv_turn {s : State S M} (h : Pre s) (t : Turn S) : Inv (turn s t) ∧ inbox (turn s t) = [] := by
  obtain ⟨e1, e2, e3, e4, e5, e6, e7, _, _, e8⟩ := turn_same s t
  obtain ⟨b1, b2, b3, b4, b5, b6⟩ := replies_same t.replies s
  have hin : inbox (turn s t) = [] := by
    apply inbox_no_result
    intro n w hn m hm
    rw [e5] at hm
    have : n = s.mb.next := by
      unfold turn at hn
      simp only at hn
      split at hn
      · simp at hn; exact hn.1.symm
      · simp at hn
      · simp at hn
    rw [this, h.futs.fresh _ (Nat.le_refl _)] at hm
    cases hm
  have hmb : (∃ within, t.next = .receive within ∧ (turn s t).task = .waiting s.mb.next within ∧ Mailbox.step s.mb (0, .receive) = some (turn s t).mb) ∨
      ((∀ n w, (turn s t).task ≠ .waiting n w) ∧ (turn s t).mb = s.mb) := by
    unfold turn
    simp only at b1 ⊢
    split
    · rename_i w hw
      refine .inl ⟨w, hw, rfl, ?_⟩
      simp [Mailbox.step, h.idle]
    · exact .inr ⟨by simp, b1⟩
    · exact .inr ⟨by simp, b1⟩
  refine ⟨⟨?_, ?_, ?_, ?_, ?_, ?_, ?_, ?_, ?_, ?_, fun _ => hin, fun hk => by rw [e2, h.intr] at hk; cases hk⟩, hin⟩
  · rcases hmb with ⟨w, _, _, hs⟩ | ⟨_, hs⟩
    · exact loopAll_step _ _ _ (by intro m hm; cases hm) h.all hs
    · rw [hs]; exact h.all
  · rcases hmb with ⟨w, _, _, hs⟩ | ⟨_, hs⟩
    · exact futs_step _ _ _ h.futs hs
    · rw [hs]; exact h.futs
  · rcases hmb with ⟨w, _, _, hs⟩ | ⟨_, hs⟩
    · exact soon_step _ _ _ (by intro m hm; cases hm) (by simp) h.all h.soon hs
    · rw [hs]; exact h.soon
  · rw [e4, e1]; exact h.num
  · intro n w hn
    rcases hmb with ⟨w', _, ht, _⟩ | ⟨ht, _⟩
    · rw [ht] at hn; cases hn; rw [e6]; exact Nat.le_refl _
    · exact absurd hn (ht n w)
  · intro hk
    rcases hmb with ⟨w', _, ht, _⟩ | ⟨_, hs⟩
    · rw [e6, e2]; exact ⟨⟨w', ht⟩, h.intr⟩
    · rw [hs, h.idle] at hk; cases hk
  · intro k hk
    rw [e5] at hk
    exact absurd hk (h.nopend k)
  · intro n w hn hf
    rw [e2]; exact h.intr
  · rw [hin, List.append_nil, e3, e4]; exact h.sub
  · intro hn; rw [e8] at hn; cases hn

theorem inv_resumeWith {b : Body S M} {s : State S M} (h : Pre s) (hst : s.st ≠ none) (g : Got M) : Inv (resumeWith b s g) ∧ inbox (resumeWith b s g) = [] := by
  unfold resumeWith
  split
  · rename_i hn; exact absurd hn hst
  · exact inv_turn h _

/-- what holds when the event loop is free and the body does not wait for a message that is still to come -/
theorem pre_of {s : State S M} (h : Inv s) (hi : s.mb.pc 0 = .idle) (hn : ∀ n w, s.task = .waiting n w → s.mb.fut n ≠ .pending) :
    Pre { s with intr := none } :=
  ⟨h.all, h.futs, h.soon, h.num, hi, fun k hk => by
    obtain ⟨⟨w, h1⟩, _⟩ := h.pend k hk
    exact hn k w h1 hk, rfl, (List.sublist_append_left _ _).trans h.sub⟩

theorem inv_resume {b : Body S M} {s s' : State S M} {v : Nat} (h : Inv s) (hi : s.mb.pc 0 = .idle) (hc : resume b s v = some s') :
    Inv s' ∧ inbox s' = [] ∧ s'.mb.log = s.mb.log ∧ s'.mb.token = s.mb.token ∧ s'.sent = s.sent ∧
      s'.received = s.received ++ inbox s := by
  have hst : s.task ≠ .created → (∀ r, s.task ≠ .ended r) → s.st ≠ none := by
    intro h1 h2 h3
    rcases h.runs h3 with h4 | ⟨r, h4⟩
    · exact h1 h4
    · exact h2 r h4
  have same : ∀ (x : State S M) (g : Got M), Pre x → x.st ≠ none → x.mb = s.mb → x.sent = s.sent →
      Inv (resumeWith b x g) ∧ inbox (resumeWith b x g) = [] ∧ (resumeWith b x g).mb.log = s.mb.log ∧ (resumeWith b x g).mb.token = s.mb.token ∧
        (resumeWith b x g).sent = s.sent ∧ (resumeWith b x g).received = x.received := by
    intro x g hp hx e1 e2
    obtain ⟨a1, a2⟩ := inv_resumeWith (b := b) hp hx g
    refine ⟨a1, a2, ?_⟩
    unfold resumeWith
    split
    · rename_i hn; exact absurd hn hx
    · rename_i st _
      obtain ⟨c1, c2, c3, c4, c5, c6, c7, _⟩ := turn_same x (b.resume st g)
      exact ⟨c4.trans (by rw [e1]), c7.trans (by rw [e1]), c1.trans e2, c3⟩
  have hs : Pre { s with intr := none } → s.intr = none → Pre s := fun hp hn =>
    ⟨hp.all, hp.futs, hp.soon, hp.num, hp.idle, hp.nopend, hn, hp.sub⟩
  have noTmo : (∀ n w, s.task ≠ .waiting n w) → s.intr ≠ some .cancel → s.intr = none := by
    intro h1 h2
    cases hi : s.intr with
    | none => rfl
    | some i =>
      cases i with
      | cancel => exact absurd hi h2
      | timeout => obtain ⟨n, w, h3⟩ := h.tmo hi; exact absurd h3 (h1 n w)
  unfold resume at hc
  split at hc
  · rename_i ht
    have hp := pre_of h hi (by rw [ht]; simp)
    split at hc
    · cases hc
      have hin : inbox { s with task := .ended true, intr := none } = [] := inbox_not_waiting (by simp)
      refine ⟨⟨h.all, h.futs, h.soon, h.num, by simp, ?_, ?_, by simp, ?_, by simp, fun _ => hin, by simp⟩, hin, rfl, rfl, rfl, by rw [inbox_not_waiting (by rw [ht]; simp)]; simp⟩
      · intro hk; rw [show s.mb.pc 0 = _ from hi] at hk; cases hk
      · intro k hk; exact absurd hk (hp.nopend k)
      · rw [hin, List.append_nil]; exact hp.sub
    · rename_i hn
      have hintr := noTmo (by rw [ht]; simp) hn
      cases hc
      have hp' := hs hp hintr
      obtain ⟨a1, a2⟩ := inv_turn hp' b.start
      obtain ⟨c1, c2, c3, c4, c5, c6, c7, _⟩ := turn_same s b.start
      exact ⟨a1, a2, c4, c7, c1, by rw [inbox_not_waiting (by rw [ht]; simp), List.append_nil]; exact c3⟩
  · rename_i ht
    have hp := pre_of h hi (by rw [ht]; simp)
    have hx := hst (by rw [ht]; simp) (by rw [ht]; simp)
    split at hc
    · cases hc
      obtain ⟨a1, a2, a3, a4, a5, a6⟩ := same { s with intr := none } .cancelled hp hx rfl rfl
      exact ⟨a1, a2, a3, a4, a5, by rw [inbox_not_waiting (by rw [ht]; simp), List.append_nil]; exact a6⟩
    · rename_i hn
      cases hc
      obtain ⟨a1, a2, a3, a4, a5, a6⟩ := same s (.other v) (hs hp (noTmo (by rw [ht]; simp) hn)) hx rfl rfl
      exact ⟨a1, a2, a3, a4, a5, by rw [inbox_not_waiting (by rw [ht]; simp), List.append_nil]; exact a6⟩
  · cases hc
  · rename_i n w ht
    have hx := hst (by rw [ht]; simp) (by rw [ht]; simp)
    have hpre : s.mb.fut n ≠ .pending → Pre { s with intr := none } := fun h1 => pre_of h hi (by
      intro n' w' hn'; rw [ht] at hn'; cases hn'; exact h1)
    split at hc
    · rename_i hf
      cases hc
      obtain ⟨a1, a2, a3, a4, a5, a6⟩ := same s .refused (hs (hpre (by rw [hf]; simp)) (h.quiet n w ht hf)) hx rfl rfl
      exact ⟨a1, a2, a3, a4, a5, by rw [show inbox s = [] by exact inbox_no_result (by intro n' w' hn' m hm; rw [ht] at hn'; cases hn'; rw [hf] at hm; cases hm), List.append_nil]; exact a6⟩
    · rename_i hu
      have hnp : ∀ i, s.intr = some i → s.mb.fut n ≠ .pending := by
        intro i hi' hf
        have := (h.pend n hf).2
        rw [hi'] at this; cases this
      split at hc
      · rename_i hi'
        cases hc
        obtain ⟨a1, a2, a3, a4, a5, a6⟩ := same { s with intr := none } .cancelled (hpre (hnp _ hi')) hx rfl rfl
        exact ⟨a1, a2, a3, a4, a5, by rw [show inbox s = [] by exact inbox_intr hi', List.append_nil]; exact a6⟩
      · rename_i hi'
        cases hc
        obtain ⟨a1, a2, a3, a4, a5, a6⟩ := same { s with intr := none } .timedOut (hpre (hnp _ hi')) hx rfl rfl
        exact ⟨a1, a2, a3, a4, a5, by rw [show inbox s = [] by exact inbox_intr hi', List.append_nil]; exact a6⟩
      · rename_i hi'
        split at hc
        · cases hc
        · rename_i m hf
          obtain ⟨x, _, rfl⟩ := Option.map_eq_some_iff.1 hc
          have hin : inbox s = [m] := by unfold inbox; simp only [ht, hi', hf]
          have hp := hs (hpre (by rw [hf]; simp)) hi'
          have hp' : Pre { s with received := s.received ++ [m] } :=
            ⟨hp.all, hp.futs, hp.soon, hp.num, hp.idle, hp.nopend, hp.intr, by have := h.sub; rwa [hin] at this⟩
          obtain ⟨a1, a2, a3, a4, a5, a6⟩ := same { s with received := s.received ++ [m] } (.message m x.1) hp' hx rfl rfl
          exact ⟨a1, a2, a3, a4, a5, by rw [hin]; exact a6⟩
        · rename_i h1 h2
          cases hc
          obtain ⟨a1, a2, a3, a4, a5, a6⟩ := same s .cancelled (hs (hpre h1) hi') hx rfl rfl
          exact ⟨a1, a2, a3, a4, a5, by rw [show inbox s = [] by exact inbox_no_result (by intro n' w' hn' m hm; rw [ht] at hn'; cases hn'; exact h2 m hm), List.append_nil]; exact a6⟩

/-! ## interruptions -/

open Expression.Mailbox in
theorem giveUp_same {mb mb' : Mailbox.State} {n : Nat} (h : Mailbox.step mb (0, .giveUp n) = some mb') :
    mb'.pc = mb.pc ∧ mb'.token = mb.token ∧ mb'.next = mb.next ∧ posted mb'.log = posted mb.log ∧ delivered mb'.log = delivered mb.log ∧ drops mb'.log = drops mb.log ∧
      mb'.queue = mb.queue ∧ mb'.owner = mb.owner ∧ mb.fut n = .pending ∧ mb'.fut = upd mb.fut n .gaveUp ∧ givenUp mb'.log = givenUp mb.log + 1 ∧ mb'.scheduled = mb.scheduled := by
  simp only [Mailbox.step] at h
  split at h <;> cases h
  rename_i hk
  refine ⟨rfl, rfl, rfl, ?_, ?_, ?_, rfl, rfl, hk.2.2, rfl, ?_, rfl⟩ <;>
    simp [State.say, posted_append, posted, delivered_append, delivered, drops_append, drops, givenUp_append, givenUp]

/-- an interruption of the body -/
theorem inv_interrupt {s : State S M} {mb : Mailbox.State} (i : Intr) (h : Inv s) (hi : s.mb.pc 0 = .idle) (h1 : LoopAll mb) (h2 : Futs mb) (hr : refusedNow s = false)
    (hm : mb = s.mb ∨ mb = { s.mb with token := true }) (ht : i = .timeout → ∃ n w, s.task = .waiting n w) (ht2 : i = .timeout → mb = s.mb)
    (ht3 : mb.token = true → i = .timeout → s.mb.token = true) : Inv (interrupt s mb i) := by
  have hf : mb.fut = s.mb.fut := by rcases hm with rfl | rfl <;> rfl
  have hl : mb.log = s.mb.log := by rcases hm with rfl | rfl <;> rfl
  have hp : mb.pc = s.mb.pc := by rcases hm with rfl | rfl <;> rfl
  have hx : mb.next = s.mb.next := by rcases hm with rfl | rfl <;> rfl
  have hidle : mb.pc 0 = .idle := by rw [hp]; exact hi
  unfold interrupt
  split
  · rename_i n w hw
    have hin : inbox { s with mb := (Mailbox.step mb (0, .giveUp n)).getD mb, intr := some i } = [] := inbox_intr rfl
    have hne : s.mb.fut n ≠ .unused := by simpa [refusedNow, hw] using hr
    cases hg : Mailbox.step mb (0, .giveUp n) with
    | none =>
      rw [hg] at hin
      have hnp : s.mb.fut n ≠ .pending := by
        intro he
        simp [Mailbox.step, hidle, hf, he] at hg
      have hno : ∀ k, mb.fut k ≠ .pending := by
        intro k hk
        rw [hf] at hk
        obtain ⟨⟨w', e⟩, _⟩ := h.pend k hk
        rw [hw] at e; cases e
        exact hnp hk
      simp only [Option.getD_none] at hin ⊢
      refine ⟨h1, h2, ⟨fun _ => by rw [hidle]; rfl, fun _ k hk => absurd hk (hno k)⟩, by rw [hl]; exact h.num, fun k w' hk => by rw [hx]; exact h.wait k w' hk, fun hk => ?_,
        fun k hk => absurd hk (hno k), fun k w' hk hu => ?_, ?_, h.runs, fun _ => hin, fun _ => ⟨n, w, hw⟩⟩
      · rw [show mb.pc 0 = _ from hidle] at hk; cases hk
      · rw [show s.task = .waiting n w from hw] at hk; cases hk
        rw [hf] at hu; exact absurd hu hne
      · rw [hin, List.append_nil]; simp only [hl]; exact (List.sublist_append_left _ _).trans h.sub
    | some mb' =>
      rw [hg] at hin
      obtain ⟨g1, g2, g3, g4, g5, g6, g7, g8, g9, g10, g11, _⟩ := giveUp_same hg
      have hno : ∀ k, mb'.fut k ≠ .pending := by
        intro k hk
        rw [g10, upd_apply] at hk
        split at hk
        · cases hk
        · rename_i hkn
          rw [hf] at hk
          obtain ⟨⟨w', e⟩, _⟩ := h.pend k hk
          rw [hw] at e; cases e
          exact hkn rfl
      simp only [Option.getD_some] at hin ⊢
      refine ⟨loopAll_step _ _ _ (by intro m hm; cases hm) h1 hg, futs_step _ _ _ h2 hg, ⟨fun _ => by rw [g1, hidle]; rfl, fun _ k hk => absurd hk (hno k)⟩,
        by rw [g4, hl]; exact h.num, fun k w' hk => by rw [g3, hx]; exact h.wait k w' hk, fun hk => ?_,
        fun k hk => absurd hk (hno k), fun k w' hk hu => ?_, ?_, h.runs, fun _ => hin, fun _ => ⟨n, w, hw⟩⟩
      · rw [show mb'.pc 0 = .idle from (by rw [g1]; exact hidle)] at hk; cases hk
      · rw [show s.task = .waiting n w from hw] at hk; cases hk
        rw [show mb'.fut n = .gaveUp from (by rw [g10, upd_same])] at hu; cases hu
      · rw [hin, List.append_nil]; simp only [g5, hl]; exact (List.sublist_append_left _ _).trans h.sub
  · rename_i r hw
    have hno : ∀ k, mb.fut k ≠ .pending := by
      intro k hk
      rw [hf] at hk
      obtain ⟨⟨w', e⟩, _⟩ := h.pend k hk
      rw [hw] at e; cases e
    have hin : inbox { s with mb := mb } = [] := inbox_not_waiting (by simp [hw])
    refine ⟨h1, h2, ⟨fun _ => by rw [hidle]; rfl, fun _ k hk => absurd hk (hno k)⟩, by rw [hl]; exact h.num, fun k w' hk => by rw [hx]; exact h.wait k w' hk, fun hk => ?_,
      fun k hk => absurd hk (hno k), fun k w' hk hu => ?_, ?_, h.runs, fun _ => hin, h.tmo⟩
    · rw [show mb.pc 0 = _ from hidle] at hk; cases hk
    · rw [show s.task = _ from hw] at hk; cases hk
    · rw [hin, List.append_nil]; simp only [hl]; exact (List.sublist_append_left _ _).trans h.sub
  · rename_i h3 h4
    have hno : ∀ k, mb.fut k ≠ .pending := by
      intro k hk
      rw [hf] at hk
      obtain ⟨⟨w', e⟩, _⟩ := h.pend k hk
      exact h3 _ _ e
    have hin : inbox { s with mb := mb, intr := some i } = [] := inbox_intr rfl
    refine ⟨h1, h2, ⟨fun _ => by rw [hidle]; rfl, fun _ k hk => absurd hk (hno k)⟩, by rw [hl]; exact h.num, fun k w' hk => absurd hk (h3 k w'), fun hk => ?_,
      fun k hk => absurd hk (hno k), fun k w' hk => absurd hk (h3 k w'), ?_, h.runs, fun _ => hin, fun he => ?_⟩
    · rw [show mb.pc 0 = _ from hidle] at hk; cases hk
    · rw [hin, List.append_nil]; simp only [hl]; exact (List.sublist_append_left _ _).trans h.sub
    · cases he
      exact ht rfl

theorem inv_step (b : Body S M) (s : State S M) (c : Nat × Act M) (s' : State S M) (h : Inv s) (hc : step b s c = some s') : Inv s' := by
  obtain ⟨t, a⟩ := c
  have hsame : ∀ mb : Mailbox.State, { s with mb := mb, sent := s.sent ++ [], chan := s.chan } = { s with mb := mb } := by
    intro mb; simp
  cases a with
  | post x =>
    obtain ⟨mb, hm, rfl⟩ := Option.map_eq_some_iff.1 hc
    refine inv_call [(x, false)] s.chan h (by intro m hm; cases hm) (.inl ⟨_, rfl⟩) hm ?_
    simp only [Mailbox.step] at hm
    split at hm <;> cases hm
    simp [Mailbox.State.at, Mailbox.State.say, posted_append, posted, h.num, List.range_succ]
  | ask x =>
    simp only [step] at hc
    split at hc
    · obtain ⟨mb, hm, rfl⟩ := Option.map_eq_some_iff.1 hc
      refine inv_call [(x, true)] _ h (by intro m hm; rfl) (.inr (.inl ⟨_, rfl⟩)) hm ?_
      simp only [Mailbox.step] at hm
      split at hm <;> cases hm
      simp [Mailbox.State.at, Mailbox.State.say, posted_append, posted, h.num, List.range_succ]
    · cases hc
  | reply k r =>
    simp only [step] at hc
    split at hc
    · cases hc
      obtain ⟨a1, a2, a3, a4, a5, a6⟩ := reply_same s k r
      have hin := inbox_congr a3 a4 (by rw [a1])
      refine ⟨by rw [a1]; exact h.all, by rw [a1]; exact h.futs, by rw [a1]; exact h.soon, by rw [a1, a2]; exact h.num, ?_, ?_, ?_, ?_, ?_, ?_, ?_, ?_⟩
      · rw [a1, a3]; exact h.wait
      · rw [a1, a3, a4]; exact h.check
      · rw [a1, a3, a4]; exact h.pend
      · rw [a1, a3, a4]; exact h.quiet
      · rw [hin, a1, a6]; exact h.sub
      · rw [a3, a5]; exact h.runs
      · rw [hin, a1]; exact h.tok
      · rw [a3, a4]; exact h.tmo
    · cases hc
  | go =>
    obtain ⟨mb, hm, rfl⟩ := Option.map_eq_some_iff.1 hc
    exact inv_go h hm
  | callback =>
    obtain ⟨mb, hm, rfl⟩ := Option.map_eq_some_iff.1 hc
    rw [← hsame]
    refine inv_call [] s.chan h (by intro m hm; cases hm) (.inr (.inr rfl)) hm ?_
    simp only [Mailbox.step] at hm
    split at hm <;> cases hm
    simp [Mailbox.State.at, h.num]
  | resume v =>
    simp only [step] at hc
    split at hc
    · rename_i hi; exact (inv_resume h hi.2 hc).1
    · cases hc
  | timeout =>
    simp only [step] at hc
    split at hc
    · rename_i n hw
      split at hc
      · rename_i hi
        cases hc
        exact inv_interrupt .timeout h hi.2.1 h.all h.futs hi.2.2.2 (.inl rfl) (fun _ => ⟨n, true, hw⟩) (fun _ => rfl) (fun h _ => h)
      · cases hc
    · cases hc
  | cancel =>
    simp only [step] at hc
    split at hc
    · rename_i hi
      split at hc
      · cases hc; exact h
      · cases hc
        have htok : Mailbox.step s.mb (0, .cancelToken) = some { s.mb with token := true } := rfl
        obtain ⟨h1, h2⟩ := all_step (by intro m hm; cases hm) ⟨h.all, h.futs⟩ htok
        exact inv_interrupt .cancel h hi.2.1 h1 h2 hi.2.2 (.inr rfl) (by simp) (by simp) (by simp)
    · cases hc

theorem inv_run {b : Body S M} {sched : List (Nat × Act M)} {s : State S M} (h : run (step b) init sched = some s) : Inv s :=
  run_inv Inv (inv_step b) inv_init sched h

end Expression.Lemmas.Worker
