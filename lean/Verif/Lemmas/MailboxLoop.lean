import Verif.Lemmas.Mailbox

/-! # Invariants of the mailbox when only the event loop processes events -/

namespace Expression.Lemmas.Mailbox

open Threads Spec.Mailbox Expression.Mailbox

/-- some thread is about to schedule a callback -/
def Posting (pc : Nat → Pc) : Prop := ∃ t, pc t = .sched

theorem posting_new (pc : Nat → Pc) (t : Nat) : Posting (upd pc t .sched) := ⟨t, upd_same ..⟩

theorem posting_upd (pc : Nat → Pc) (t : Nat) (p : Pc) (hn : pc t ≠ .sched) (h : Posting pc) : Posting (upd pc t p) := by
  obtain ⟨t', h⟩ := h
  exact ⟨t', by rw [upd_other _ _ (fun he => hn (by rw [← he]; exact h))]; exact h⟩

/-- past the test of the token -/
def past : Pc → Bool
  | .check => true
  | .lock => true
  | .empty => true
  | .get => true
  | .read _ => true
  | .write _ _ => true
  | .call _ _ => true
  | _ => false

/-- past the test of the continuation, which is still there -/
def ahead : Pc → Bool
  | .lock => true
  | .empty => true
  | .get => true
  | .read _ => true
  | .write _ _ => true
  | _ => false

/-- will look at the queue -/
def awake : Pc → Bool
  | .rSetCancel _ => true
  | .test => true
  | .check => true
  | .lock => true
  | .empty => true
  | .get => true
  | .read _ => true
  | .write _ _ => true
  | _ => false

/-- after a cancellation -/
def cancelling : Pc → Bool
  | .cRead => true
  | .cWrite _ => true
  | .cCall _ => true
  | _ => false

/-- the receive in hand -/
def target : Pc → Option Nat
  | .rSet n => some n
  | .call _ c => c
  | _ => none

/-- who waits, and whether they can be given a message -/
structure Loop (s : State) : Prop where
  others : ∀ t, t ≠ 0 → s.pc t = .idle ∨ s.pc t = .sched
  tok : cancelling (s.pc 0) = true → s.token = true
  live1 : past (s.pc 0) = true → ∀ n, s.cont = some n → s.fut n = .pending ∨ s.fut n = .gaveUp
  live2 : s.token = false → ∀ n, s.cont = some n → s.fut n = .pending ∨ s.fut n = .gaveUp
  liveSet : ∀ n, s.pc 0 = .rSet n → s.fut n = .pending
  live3 : ∀ m n, s.pc 0 = .call m (some n) → s.fut n = .pending ∨ s.fut n = .gaveUp
  has : ahead (s.pc 0) = true → s.cont ≠ none
  write : ∀ m c, s.pc 0 = .write m c → c = s.cont
  hasCall : ∀ m c, s.pc 0 = .call m c → c ≠ none
  noCont : ∀ m c, s.pc 0 = .call m c → s.cont = none
  setNone : ∀ n, s.pc 0 = .rSet n → s.cont = none
  fresh : ∀ n, s.next ≤ n → s.fut n = .unused
  pend : ∀ n, s.fut n = .pending → s.cont = some n ∨ target (s.pc 0) = some n
  drops1 : drops s.log ≤ givenUp s.log
  drops2 : ∀ n, s.cont = some n → s.fut n = .gaveUp → drops s.log + 1 ≤ givenUp s.log
  drops3 : ∀ m n, s.pc 0 = .call m (some n) → s.fut n = .gaveUp → drops s.log + 1 ≤ givenUp s.log

theorem loop_init : Loop init where
  others t _ := .inl rfl
  tok h := by cases h
  live1 h := by cases h
  live2 _ n h := by cases h
  liveSet n h := by cases h
  live3 m n h := by cases h
  has h := by cases h
  write m c h := by cases h
  hasCall m c h := by cases h
  noCont m c h := by cases h
  setNone n h := by cases h
  fresh n _ := rfl
  pend n h := by cases h
  drops1 := Nat.le_refl _
  drops2 n h := by cases h
  drops3 m n h := by cases h

/-- asks only by the event loop -/
def Allowed (c : Nat × Act) : Prop := ∀ m, c.2 = .ask m → c.1 = 0

set_option maxHeartbeats 4000000 in
theorem loop_step (s : State) (c : Nat × Act) (s' : State) (hP : Allowed c) (ho : Ord s) (h : Loop s) (hc : step s c = some s') : Loop s' := by
  obtain ⟨t, a⟩ := c
  obtain ⟨others, tok, live1, live2, liveSet, live3, has, write, hasCall, noCont, setNone, fresh, pend, drops1, drops2, drops3⟩ := h
  have oldCont := ho.oldCont
  have oldSet := ho.oldSet
  have oldCall := ho.oldCall 0
  have zero : s.pc t ≠ .idle → s.pc t ≠ .sched → t = 0 := by
    intro h1 h2
    by_cases ht : t = 0
    · exact ht
    · rcases others t ht with h | h
      · exact absurd h h1
      · exact absurd h h2
  clear ho
  simp only [Allowed] at hP
  cases a <;> simp only [step] at hc
  case go =>
    split at hc
    · cases hc
    · rename_i hs
      cases hc
      constructor <;> simp only [State.at, State.say, upd_apply] <;> grind [cancelling, past, ahead, target]
    all_goals rename_i hs
    all_goals obtain rfl : t = 0 := zero (by rw [hs]; simp) (by rw [hs]; simp)
    all_goals try (split at hc)
    all_goals try (cases hc; done)
    all_goals cases hc
    all_goals constructor <;>
      simp only [State.at, State.say, upd_apply, drops_append, givenUp_append, drops, givenUp, if_true] <;>
      grind [cancelling, past, ahead, target]
  all_goals try (split at hc)
  all_goals try (cases hc; done)
  all_goals cases hc
  all_goals constructor <;>
    simp only [State.at, State.say, upd_apply, drops_append, givenUp_append, drops, givenUp] <;>
    grind [cancelling, past, ahead, target]

/-- a waiting receive and a queued message: somebody will look -/
structure Wake (s : State) : Prop where
  wake : s.cont ≠ none → s.queue ≠ [] → s.token = false → 0 < s.scheduled ∨ Posting s.pc ∨ awake (s.pc 0) = true

set_option maxHeartbeats 4000000 in
theorem wake_step (s : State) (c : Nat × Act) (s' : State) (hP : Allowed c) (hl : Loop s) (h : Wake s) (hc : step s c = some s') : Wake s' := by
  obtain ⟨t, a⟩ := c
  obtain ⟨wake⟩ := h
  have zero : s.pc t ≠ .idle → s.pc t ≠ .sched → t = 0 := by
    intro h1 h2
    by_cases ht : t = 0
    · exact ht
    · rcases hl.others t ht with h | h
      · exact absurd h h1
      · exact absurd h h2
  have new := posting_new s.pc t
  have keep := posting_upd s.pc t
  have noCont := hl.noCont
  have tok := hl.tok
  clear hl
  simp only [Allowed] at hP
  have awake0 : ∀ p, awake (upd s.pc 0 p 0) = awake p := fun p => by rw [upd_same]
  have awakeN : ∀ p, t ≠ 0 → awake (upd s.pc t p 0) = awake (s.pc 0) := fun p h => by rw [upd_other _ _ (Ne.symm h)]
  cases a <;> simp only [step] at hc
  case go =>
    split at hc
    · cases hc
    · rename_i hs
      cases hc
      exact ⟨fun _ _ _ => .inl (Nat.succ_pos _)⟩
    all_goals rename_i hs
    all_goals obtain rfl : t = 0 := zero (by rw [hs]; simp) (by rw [hs]; simp)
    all_goals try (split at hc)
    all_goals try (cases hc; done)
    all_goals cases hc
    all_goals constructor
    all_goals simp only [State.at, State.say]
    all_goals grind [awake, cancelling]
  all_goals try (split at hc)
  all_goals try (cases hc; done)
  all_goals cases hc
  all_goals constructor
  all_goals simp only [State.at, State.say]
  all_goals grind [awake, cancelling]

theorem allowed_of {sched : List (Nat × Act)} (h : loopAsks sched) : ∀ c ∈ sched, Allowed c := by
  rintro ⟨t, a⟩ hc m rfl
  exact h t m hc

theorem acc_run {sched : List (Nat × Act)} {s : State} (h : run step init sched = some s) : Acc s := run_inv Acc acc_step acc_init sched h

theorem ord_run {sched : List (Nat × Act)} {s : State} (h : run step init sched = some s) : Ord s :=
  (run_inv (fun s => Acc s ∧ Ord s) (fun s c s' h hc => ⟨acc_step s c s' h.1 hc, ord_step s c s' h.1 h.2 hc⟩) ⟨acc_init, ord_init⟩ sched h).2

theorem loop_run {sched : List (Nat × Act)} {s : State} (hs : loopAsks sched) (h : run step init sched = some s) : Loop s ∧ Wake s := by
  have := run_inv_on Allowed (fun s => (Acc s ∧ Ord s) ∧ Loop s ∧ Wake s)
    (fun s c s' hP h hc => ⟨⟨acc_step s c s' h.1.1 hc, ord_step s c s' h.1.1 h.1.2 hc⟩, loop_step s c s' hP h.1.2 h.2.1 hc, wake_step s c s' hP h.2.1 h.2.2 hc⟩)
    ⟨⟨acc_init, ord_init⟩, loop_init, ⟨fun h => absurd rfl h⟩⟩ sched (allowed_of hs) h
  exact this.2

/-- the log only grows, and gets its events from the steps -/
theorem givenUp_step (s : State) (c : Nat × Act) (s' : State) (hP : ∀ n, c.2 ≠ .giveUp n) (hc : step s c = some s') : givenUp s'.log = givenUp s.log := by
  obtain ⟨t, a⟩ := c
  cases a <;> simp only [step] at hc
  case giveUp n => exact absurd rfl (hP n)
  case go =>
    split at hc
    · cases hc
    all_goals try (split at hc)
    all_goals try (cases hc; done)
    all_goals cases hc
    all_goals simp [State.at, State.say, givenUp_append, givenUp]
  all_goals try (split at hc)
  all_goals try (cases hc; done)
  all_goals cases hc
  all_goals simp [State.at, State.say, givenUp_append, givenUp]

theorem givenUp_run {sched : List (Nat × Act)} {s : State} (hs : patient sched) (h : run step init sched = some s) : givenUp s.log = 0 :=
  run_inv_on (fun c : Nat × Act => ∀ n, c.2 ≠ .giveUp n) (fun s => givenUp s.log = 0) (fun s c s' hP h hc => (givenUp_step s c s' hP hc).trans h) rfl sched
    (by rintro ⟨t, a⟩ hc n rfl; exact hs t n hc) h

end Expression.Lemmas.Mailbox
