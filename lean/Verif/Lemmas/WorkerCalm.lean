import Verif.Lemmas.WorkerMore

/-! # An agent that nobody cancels and whose receives do not time out -/

namespace Expression.Lemmas.Worker

open Threads Lemmas.Mailbox Spec.Mailbox Expression.Worker Spec.Worker Lemmas.Agent

variable {S M : Type}

structure Calm (s : State S M) : Prop where
  intr : s.intr = none
  tok : s.mb.token = false
  fut : ∀ n, s.mb.fut n ≠ .gaveUp ∧ s.mb.fut n ≠ .cancelled
  wait : ∀ n w, s.task = .waiting n w → s.mb.fut n = .unused → s.mb.pc 0 = .rCheck ∧ s.mb.cont = none ∧ n = s.mb.next

theorem calm_init : Calm (init : State S M) := by
  constructor <;> simp [init, Mailbox.init]

open Expression.Mailbox in
theorem calm_mb_go {s s' : Mailbox.State} {t : Nat} (hl : LoopAll s) (ht : s.token = false) (hf : ∀ n, s.fut n ≠ .gaveUp ∧ s.fut n ≠ .cancelled)
    (hc : Mailbox.step s (t, .go) = some s') :
    s'.token = false ∧ (∀ n, s'.fut n ≠ .gaveUp ∧ s'.fut n ≠ .cancelled) ∧
      (s.pc 0 = .rCheck → s.cont = none → s'.fut s.next = .unused → s'.pc 0 = .rCheck ∧ s'.cont = none ∧ s'.next = s.next) := by
  have zero : s.pc t ≠ .idle → s.pc t ≠ .sched → t = 0 := by
    intro h1 h2
    by_cases ht : t = 0
    · exact ht
    · rcases hl.loop.others t ht with h | h
      · exact absurd h h1
      · exact absurd h h2
  simp only [Mailbox.step] at hc
  split at hc
  · cases hc
  · rename_i hs
    cases hc
    refine ⟨ht, hf, fun h1 h2 h3 => ⟨?_, h2, rfl⟩⟩
    simp only [State.at, upd_apply]
    split
    · rename_i h; subst h; rw [hs] at h1; cases h1
    · exact h1
  all_goals rename_i hs
  all_goals obtain rfl : t = 0 := zero (by rw [hs]; simp) (by rw [hs]; simp)
  all_goals have hcan := hl.loop.tok
  all_goals rw [hs] at hcan ⊢
  all_goals try (split at hc)
  all_goals try (cases hc; done)
  all_goals try (simp [cancelling, ht] at hcan; done)
  all_goals cases hc
  all_goals first
    | (refine ⟨ht, hf, ?_⟩; intro h; cases h; done)
    | (rename_i hcn; exact ⟨ht, hf, fun _ h2 => absurd h2 hcn⟩)
    | (refine ⟨ht, fun n => ?_, ?_⟩
       · simp only [State.at, State.say, upd_apply]
         split
         · simp
         · exact hf n
       · simp [State.at, State.say]; done)

/-- nothing waits in the mailbox for the next message when the body is about to run -/
theorem calm_cont {s : State S M} (hi : Inv s) (h : Calm s) (hn : ∀ n w, s.task = .waiting n w → s.mb.fut n ≠ .pending) : s.mb.cont = none := by
  cases hk : s.mb.cont with
  | none => rfl
  | some n =>
    rcases hi.all.loop.live2 h.tok n hk with hp | hp
    · obtain ⟨⟨w, hw⟩, _⟩ := hi.pend n hp
      exact absurd hp (hn n w hw)
    · exact absurd hp (h.fut n).1

/-- the task of an agent that does this next -/
def TaskOf (next : Next) (task : Task) : Prop :=
  match next with
  | .receive w => ∃ n, task = .waiting n w
  | .sleep => task = .sleeping
  | .stop r => task = .ended r

theorem turn_task (s : State S M) (t : Turn S) : TaskOf t.next (turn s t).task := by
  unfold turn TaskOf
  split <;> simp_all

theorem calm_turn {s : State S M} (hi : Inv s) (h : Calm s) (h0 : s.mb.pc 0 = .idle) (hn : ∀ n w, s.task = .waiting n w → s.mb.fut n ≠ .pending) (t : Turn S) :
    Calm (turn s t) := by
  have hk := calm_cont hi h hn
  obtain ⟨c1, c2, c3, c4, c5, c6, c7, _, _, c8⟩ := turn_same s t
  refine ⟨by rw [c2]; exact h.intr, by rw [c7]; exact h.tok, by rw [c5]; exact h.fut, fun n w => ?_⟩
  unfold turn
  simp only
  split
  · intro hw _
    simp only [Task.waiting.injEq] at hw
    simp [Mailbox.step, h0, Mailbox.State.at, hk, ← hw.1]
  · simp
  · simp

/-- how the body goes on -/
inductive Resumes (b : Body S M) (s s' : State S M) (v : Nat) : Prop where
  | created (ht : s.task = .created) (h : s' = turn s b.start)
  | sleeping (st : S) (ht : s.task = .sleeping) (hs : s.st = some st) (h : s' = turn s (b.resume st (.other v)))
  | message (st : S) (n : Nat) (w : Bool) (m : Nat) (x : M × Bool) (ht : s.task = .waiting n w) (hf : s.mb.fut n = .result m) (hm : s.sent[m]? = some x) (hs : s.st = some st)
      (h : s' = turn { s with received := s.received ++ [m] } (b.resume st (.message m x.1)))

theorem calm_resumes {b : Body S M} {s s' : State S M} {v : Nat} (hi : Inv s) (h : Calm s) (h0 : s.mb.pc 0 = .idle) (hc : resume b s v = some s') : Resumes b s s' v := by
  have hst : s.task ≠ .created → (∀ r, s.task ≠ .ended r) → ∃ st, s.st = some st := by
    intro h1 h2
    cases hs : s.st with
    | some st => exact ⟨st, rfl⟩
    | none =>
      rcases hi.runs hs with h4 | ⟨r, h4⟩
      · exact absurd h4 h1
      · exact absurd h4 (h2 r)
  unfold resume at hc
  split at hc
  · rename_i ht
    rw [if_neg (by rw [h.intr]; simp)] at hc
    cases hc
    exact .created ht rfl
  · rename_i ht
    rw [if_neg (by rw [h.intr]; simp)] at hc
    cases hc
    obtain ⟨st, hs⟩ := hst (by rw [ht]; simp) (by rw [ht]; simp)
    exact .sleeping st ht hs (by simp only [resumeWith, hs])
  · cases hc
  · rename_i n w ht
    obtain ⟨st, hs⟩ := hst (by rw [ht]; simp) (by rw [ht]; simp)
    split at hc
    · rename_i hf
      have := (h.wait n w ht hf).1
      rw [h0] at this; cases this
    · rw [h.intr] at hc
      simp only at hc
      split at hc
      · cases hc
      · rename_i m hf
        obtain ⟨x, hx, rfl⟩ := Option.map_eq_some_iff.1 hc
        exact .message st n w m x ht hf hx hs (by simp only [resumeWith, hs, h.intr])
      · rename_i hp hr
        exfalso
        cases hf : s.mb.fut n with
        | unused => exact ‹s.mb.fut n = .unused → False› hf
        | pending => exact hp hf
        | result m => exact hr m hf
        | cancelled => exact (h.fut n).2 hf
        | gaveUp => exact (h.fut n).1 hf

theorem calm_step (b : Body S M) (s : State S M) (c : Nat × Act M) (s' : State S M) (h1 : ∀ t, c ≠ (t, .cancel)) (h2 : isTimeout c = false) (hi : Inv s) (h : Calm s)
    (hc : step b s c = some s') : Calm s' := by
  obtain ⟨t, a⟩ := c
  have hmb : ∀ (mb : Mailbox.State) (sent : List (M × Bool)) (chan : Nat → Ask.State), mb.token = s.mb.token → mb.fut = s.mb.fut → mb.cont = s.mb.cont → mb.next = s.mb.next →
      (s.mb.pc 0 = .rCheck → mb.pc 0 = .rCheck) → Calm { s with mb := mb, sent := sent, chan := chan } := by
    intro mb sent chan e1 e2 e3 e4 e5
    refine ⟨h.intr, e1.trans h.tok, by simp only [e2]; exact h.fut, fun n w hw hf => ?_⟩
    simp only [e2] at hf
    obtain ⟨a1, a2, a3⟩ := h.wait n w hw hf
    exact ⟨e5 a1, e3.trans a2, by simp only [e4]; exact a3⟩
  cases a with
  | post x =>
    obtain ⟨mb, hm, rfl⟩ := Option.map_eq_some_iff.1 hc
    simp only [Mailbox.step] at hm
    split at hm <;> cases hm
    rename_i hidle
    refine hmb _ _ _ rfl rfl rfl rfl fun h5 => ?_
    simp only [Mailbox.State.say, Mailbox.State.at, upd_apply]
    split
    · rename_i e; rw [← e, h5] at hidle; cases hidle
    · exact h5
  | ask x =>
    simp only [step] at hc
    split at hc
    · obtain ⟨mb, hm, rfl⟩ := Option.map_eq_some_iff.1 hc
      simp only [Mailbox.step] at hm
      split at hm <;> cases hm
      rename_i hidle
      exact hmb _ _ _ rfl rfl rfl rfl fun h5 => by rw [h5] at hidle; cases hidle
    · cases hc
  | reply k r =>
    simp only [step] at hc
    split at hc
    · cases hc
      obtain ⟨a1, a2, a3, a4, a5, a6⟩ := reply_same s k r
      exact ⟨by rw [a4]; exact h.intr, by rw [a1]; exact h.tok, by rw [a1]; exact h.fut, by rw [a1, a3]; exact h.wait⟩
    · cases hc
  | go =>
    obtain ⟨mb, hm, rfl⟩ := Option.map_eq_some_iff.1 hc
    obtain ⟨a1, a2, a3⟩ := calm_mb_go hi.all h.tok h.fut hm
    refine ⟨h.intr, a1, a2, fun n w hw hf => ?_⟩
    obtain ⟨b1, b2, b3⟩ := h.wait n w hw ((pending_go' hi.all hm).2.1 n hf)
    subst b3
    obtain ⟨c1, c2, c3⟩ := a3 b1 b2 hf
    exact ⟨c1, c2, c3.symm⟩
  | callback =>
    obtain ⟨mb, hm, rfl⟩ := Option.map_eq_some_iff.1 hc
    simp only [Mailbox.step] at hm
    split at hm <;> cases hm
    rename_i hidle
    exact hmb _ _ _ rfl rfl rfl rfl fun h5 => by
      obtain ⟨rfl, e, _⟩ := hidle
      rw [h5] at e; cases e
  | resume v =>
    simp only [step] at hc
    split at hc
    · rename_i h0
      cases calm_resumes hi h h0.2 hc with
      | created ht he => subst he; exact calm_turn hi h h0.2 (by rw [ht]; simp) _
      | sleeping st ht hs he => subst he; exact calm_turn hi h h0.2 (by rw [ht]; simp) _
      | message st n w m x ht hf hm hs he =>
        subst he
        have hcn : ∀ n w, s.task = .waiting n w → s.mb.fut n ≠ .pending := by
          rw [ht]; intro n' w' e; cases e; rw [hf]; simp
        have h3 := calm_turn hi h h0.2 hcn (b.resume st (.message m x.1))
        have e : ∀ (y : State S M) (t : Turn S), y.mb = s.mb → (turn y t).mb = (turn s t).mb ∧ (turn y t).task = (turn s t).task := by
          intro y t hy
          have b1 := (replies_same t.replies y).1
          have b2 := (replies_same t.replies s).1
          unfold turn
          simp only
          split
          · simp [hy]
          · simp [hy, b1, b2]
          · simp [hy, b1, b2]
        obtain ⟨e1, e2⟩ := e { s with received := s.received ++ [m] } (b.resume st (.message m x.1)) rfl
        obtain ⟨_, c2, _⟩ := turn_same { s with received := s.received ++ [m] } (b.resume st (.message m x.1))
        exact ⟨c2.trans h.intr, by rw [e1]; exact h3.tok, by rw [e1]; exact h3.fut, by rw [e1, e2]; exact h3.wait⟩
    · cases hc
  | timeout => cases h2
  | cancel => exact absurd rfl (h1 t)

/-- what is done from outside leaves the body alone -/
theorem outside_step {b : Body S M} {s s' : State S M} {c : Nat × Act M} (h1 : ∀ t, c ≠ (t, .cancel)) (h2 : isTimeout c = false) (hr : isResume c = false)
    (hc : step b s c = some s') : s'.task = s.task ∧ s'.st = s.st ∧ s'.received = s.received ∧ s'.intr = s.intr := by
  obtain ⟨t, a⟩ := c
  cases a with
  | post x => obtain ⟨mb, hm, rfl⟩ := Option.map_eq_some_iff.1 hc; exact ⟨rfl, rfl, rfl, rfl⟩
  | ask x =>
    simp only [step] at hc
    split at hc
    · obtain ⟨mb, hm, rfl⟩ := Option.map_eq_some_iff.1 hc; exact ⟨rfl, rfl, rfl, rfl⟩
    · cases hc
  | reply k r =>
    simp only [step] at hc
    split at hc
    · cases hc
      obtain ⟨a1, a2, a3, a4, a5, a6⟩ := reply_same s k r
      exact ⟨a3, a5, a6, a4⟩
    · cases hc
  | go => obtain ⟨mb, hm, rfl⟩ := Option.map_eq_some_iff.1 hc; exact ⟨rfl, rfl, rfl, rfl⟩
  | callback => obtain ⟨mb, hm, rfl⟩ := Option.map_eq_some_iff.1 hc; exact ⟨rfl, rfl, rfl, rfl⟩
  | resume v => cases hr
  | timeout => cases h2
  | cancel => exact absurd rfl (h1 t)

/-- also cancelling and timeouts leave its state alone, until it is resumed -/
theorem outside_same {b : Body S M} {s s' : State S M} {c : Nat × Act M} (hr : isResume c = false) (hc : step b s c = some s') :
    s'.task = s.task ∧ s'.st = s.st ∧ s'.received = s.received := by
  have hint : ∀ mb i, (interrupt s mb i).task = s.task ∧ (interrupt s mb i).st = s.st ∧ (interrupt s mb i).received = s.received := by
    intro mb i
    unfold interrupt
    split <;> exact ⟨rfl, rfl, rfl⟩
  by_cases h1 : ∀ t, c ≠ (t, .cancel)
  · cases h2 : isTimeout c with
    | false => obtain ⟨a1, a2, a3, _⟩ := outside_step h1 h2 hr hc; exact ⟨a1, a2, a3⟩
    | true =>
      obtain ⟨t, a⟩ := c
      cases a <;> first | cases h2; done | skip
      simp only [step] at hc
      split at hc
      · split at hc
        · cases hc; exact hint _ _
        · cases hc
      · cases hc
  · obtain ⟨t, rfl⟩ := Classical.not_forall_not.1 h1
    simp only [step] at hc
    split at hc
    · split at hc
      · cases hc; exact ⟨rfl, rfl, rfl⟩
      · cases hc; exact hint _ _
    · cases hc

/-- what is sent -/
theorem sent_step {b : Body S M} {s s' : State S M} {c : Nat × Act M} (hc : step b s c = some s') :
    s'.sent = s.sent ∨ (∃ t x, c = (t, .post x) ∧ s'.sent = s.sent ++ [(x, false)]) ∨ ∃ t x, c = (t, .ask x) ∧ s'.sent = s.sent ++ [(x, true)] := by
  obtain ⟨t, a⟩ := c
  have hint : ∀ mb i, (interrupt s mb i).sent = s.sent := by
    intro mb i
    unfold interrupt
    split <;> rfl
  have hres : ∀ (x : State S M) g, x.sent = s.sent → (resumeWith b x g).sent = s.sent := fun x g hx => (resumeWith_grow x g).1.trans hx
  cases a with
  | post x => obtain ⟨mb, hm, rfl⟩ := Option.map_eq_some_iff.1 hc; exact .inr (.inl ⟨t, x, rfl, rfl⟩)
  | ask x =>
    simp only [step] at hc
    split at hc
    · obtain ⟨mb, hm, rfl⟩ := Option.map_eq_some_iff.1 hc; exact .inr (.inr ⟨t, x, rfl, rfl⟩)
    · cases hc
  | reply k r =>
    simp only [step] at hc
    split at hc
    · cases hc; exact .inl (reply_same s k r).2.1
    · cases hc
  | go => obtain ⟨mb, hm, rfl⟩ := Option.map_eq_some_iff.1 hc; exact .inl rfl
  | callback => obtain ⟨mb, hm, rfl⟩ := Option.map_eq_some_iff.1 hc; exact .inl rfl
  | resume v =>
    refine .inl ?_
    simp only [step] at hc
    split at hc
    · unfold resume at hc
      split at hc
      · split at hc <;> cases hc
        · rfl
        · exact turn_sent _ _
      · split at hc <;> cases hc <;> exact hres _ _ rfl
      · cases hc
      · split at hc
        · cases hc; exact hres _ _ rfl
        · split at hc
          · cases hc; exact hres _ _ rfl
          · cases hc; exact hres _ _ rfl
          · split at hc
            · cases hc
            · obtain ⟨x, _, rfl⟩ := Option.map_eq_some_iff.1 hc; exact hres _ _ rfl
            · cases hc; exact hres _ _ rfl
    · cases hc
  | timeout =>
    simp only [step] at hc
    split at hc
    · split at hc
      · cases hc; exact .inl (hint _ _)
      · cases hc
    · cases hc
  | cancel =>
    simp only [step] at hc
    split at hc
    · split at hc
      · cases hc; exact .inl rfl
      · cases hc; exact .inl (hint _ _)
    · cases hc

end Expression.Lemmas.Worker
